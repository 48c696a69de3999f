import Verif.Props.Double
import Verif.Props.RoundedClosest

/-!
# The closest point search in double precision: C124
-/

set_option linter.unusedSectionVars false
set_option linter.unusedSimpArgs false

namespace PathLib

open Spec Bezier BContour

/-- The results of several searches on one contour, one after the other, and the contour at the end: a search can change the lookup
table of the contour. -/
noncomputable def Spec.searches (R : Rounding) (H : Hypot) (c : BContour) : List (Pt ℝ × Int) → List (Py (ℝ × Pt ℝ)) × BContour
  | [] => ([], c)
  | q :: qs =>
    let (r, c') := Rounded.findClosestPoint R H q.1 q.2 c
    let (rs, c'') := Spec.searches R H c' qs
    (r :: rs, c'')

namespace DoubleClosest

variable {c : ℝ} {H : Hypot} {b e k K : ℕ}

/-- The two states of the loop are the same, and the parameters are safe. -/
def Same (b K : ℕ) (r r' : Refine) : Prop := r = r' ∧ ∀ t ∈ r.tt, Safe b K t t

theorem Same.mono {b K K' : ℕ} {r r' : Refine} (h : Same b K r r') (hK : K ≤ K') : Same b K' r r' :=
  ⟨h.1, fun t ht => (h.2 t ht).mono (le_refl _) hK⟩

theorem SafePt.refl_of {p q : Pt ℝ} (h : SafePt e k p q) : SafePt e k p p := by
  have := h.eq
  subst this
  exact h

/-- The distance of two safe points is that of their differences, which are the same. -/
theorem dist_eq {p q : Pt ℝ} (hp : SafePt e k p p) (hq : SafePt e k q q) (he : e ≤ 1074) (hk : k + 1 ≤ 1023) :
    H.fn ((double c).sub p.1 q.1) ((double c).sub p.2 q.2) = H.fn (float.sub p.1 q.1) (float.sub p.2 q.2) := by
  rw [(hp.1.sub (c := c) hq.1 he hk).eq, (hp.2.sub (c := c) hq.2 he hk).eq]

theorem inner_rel {point : Pt ℝ} (hpoint : SafePt 100 100 point point) {ps : Segment ℝ} (hps : SafeSeg 100 100 ps ps) (h4 : ps.length ≤ 4)
    {t1 step : ℝ} (h1 : Safe b K t1 t1) (hs : Safe b (K + 1) step step) (hb : b ≤ 300) (hK : K ≤ 200) {r r' : Refine}
    (hr : Same b (K + 4) r r') (j : ℕ) (hj : j ≤ 3) :
    PyRel (Same b (K + 4)) (Rounded.refineInner (double c) H point ps t1 step r j) (Rounded.refineInner float H point ps t1 step r' j) := by
  obtain ⟨rfl, htt⟩ := hr
  have sj : Safe 0 2 ((j : ℕ) : ℝ) (j : ℕ) := by
    have := Safe.int (j : ℤ) (k := 2) (by
      rw [abs_of_nonneg (by positivity)]
      have : ((j : ℤ) : ℝ) ≤ 3 := by exact_mod_cast hj
      linarith)
    simpa using this
  have hm := (sj.mul (c := c) hs (by omega) (by omega)).mono (show 0 + b ≤ b by omega) (show 2 + (K + 1) ≤ K + 3 by omega)
  have hn := (h1.mono (le_refl b) (show K ≤ K + 3 by omega)).add (c := c) hm (by omega) (by omega)
  have en := hn.eq
  have hn' : Safe b (K + 4) (float.add t1 (float.mul (j : ℝ) step)) (float.add t1 (float.mul (j : ℝ) step)) := by
    rw [en] at hn
    exact hn.mono (le_refl _) (by omega)
  unfold Rounded.refineInner
  simp only [en]
  refine (get_rel (c := c) hps h4 hn' (by omega) (by omega)).bind fun p q hpq => PyRel.pure ?_
  have e1 := hpq.eq
  have hpq' := SafePt.refl_of hpq
  subst e1
  rw [dist_eq (c := c) hpq' (hpoint.mono (show 100 ≤ 3 * b + 100 by omega) (show 100 ≤ 3 * (K + 4) + 100 + 8 by omega)) (by omega) (by omega)]
  refine ⟨rfl, ?_⟩
  intro t ht
  split_ifs at ht <;>
  · simp only [List.mem_append, List.mem_singleton] at ht
    rcases ht with ht | rfl
    · exact htt t ht
    · exact hn'

theorem milli_eq : (double c).rnd (1 / 1000) = float.rnd (1 / 1000) :=
  (Safe.normal (c := c) (a := 10) (k := 0) (.inr (by norm_num [abs_of_pos])) (by norm_num [abs_of_pos]) (by norm_num) (by norm_num)).eq

theorem milli_le : (2:ℝ) ^ (-(10 : ℤ)) ≤ float.rnd (1 / 1000) := by
  have h : (2:ℝ) ^ (-(10 : ℤ)) ≤ |roundBits 53 (1 / 1000)| := le_abs_roundBits (by norm_num [abs_of_pos])
  have h5 := (binary 52).error (1 / 1000)
  have hu : (binary 52).u = 2 ^ (-53 : ℤ) := rfl
  rw [hu] at h5
  have h6 := (abs_le.mp h5).1
  have h0 : 0 ≤ (binary 52).rnd (1 / 1000) := by
    norm_num [abs_of_pos] at h6
    linarith
  rwa [show |roundBits 53 (1 / 1000)| = roundBits 53 (1 / 1000) from abs_of_nonneg h0] at h

/-- A rounded number that is not small is a multiple of `2 ^ -63`. -/
theorem step_multiple {x : ℝ} (h : float.rnd (1 / 1000) ≤ float.rnd x) : Multiple 63 (float.rnd x) := by
  have h1 := milli_le.trans h
  have hx : (2:ℝ) ^ (-((10 : ℕ) : ℤ)) ≤ |x| := by
    by_contra hlt
    push Not at hlt
    have h2 : |roundBits 53 x| ≤ 2 ^ (-(10 : ℤ)) := abs_roundBits_le hlt.le
    have h3 : float.rnd x ≤ 2 ^ (-(10 : ℤ)) := (le_abs_self _).trans h2
    have h4 : float.rnd (1 / 1000) ≤ 2 ^ (-(10 : ℤ)) := h.trans h3
    have h5 := (binary 52).error (1 / 1000)
    have hu : (binary 52).u = 2 ^ (-53 : ℤ) := rfl
    rw [hu] at h5
    have h6 := (abs_le.mp h5).1
    have h7 : (1 / 1000 : ℝ) - 2 ^ (-53 : ℤ) * |1 / 1000| ≤ 2 ^ (-(10 : ℤ)) := by linarith
    norm_num [abs_of_pos] at h7
  exact multiple_round (a := 10) hx

theorem loop_rel {point : Pt ℝ} (hpoint : SafePt 100 100 point point) {ps : Segment ℝ} (hps : SafeSeg 100 100 ps ps) (h4 : ps.length ≤ 4)
    (hb : b ≤ 300) (hb' : 63 ≤ b) (n : ℕ) : ∀ {K : ℕ} {r r' : Refine}, K + 4 * n ≤ 200 → Same b K r r' →
    PyRel (fun a b => a = b) (Rounded.refineLoop (double c) H point ps n r) (Rounded.refineLoop float H point ps n r') := by
  induction n with
  | zero => intro K r r' _ h; exact h.1
  | succ n ih =>
    intro K r r' hK hr
    obtain ⟨rfl, htt⟩ := hr
    have hF : List.Forall₂ (Safe b K) r.tt r.tt := by
      have key : ∀ l : List ℝ, (∀ t ∈ l, Safe b K t t) → List.Forall₂ (Safe b K) l l := by
        intro l
        induction l with
        | nil => intro _; exact .nil
        | cons x l ih => intro h; exact .cons (h x (by simp)) (ih fun t ht => h t (by simp [ht]))
      exact key _ htt
    rw [Rounded.refineLoop, Rounded.refineLoop]
    simp only
    refine (PyRel.get hF _).bind fun t1 t1' h1 => (PyRel.get hF _).bind fun t2 t2' h2 => ?_
    have e1 := h1.eq
    have e2 := h2.eq
    subst e1 e2
    have s5 : Safe 0 3 (5:ℝ) 5 := by simpa using Safe.int 5 (k := 3) (by norm_num)
    have hs := (h2.sub (c := c) h1 (by omega) (by omega)).div (c := c) s5 (by omega) (by omega)
    have es := hs.eq
    rw [es, milli_eq]
    by_cases hlt : (binary 52).div ((binary 52).sub t2 t1) 5 < float.rnd (1 / 1000)
    · rw [if_pos hlt, if_pos hlt]; rfl
    · rw [if_neg hlt, if_neg hlt]
      have hmult : Multiple 63 ((binary 52).div ((binary 52).sub t2 t1) 5) := step_multiple (not_lt.mp hlt)
      have hstep : Safe b (K + 1) ((binary 52).div ((binary 52).sub t2 t1) 5) ((binary 52).div ((binary 52).sub t2 t1) 5) :=
        ⟨rfl, hmult.mono hb', by rw [← es]; exact hs.le⟩
      refine (PyRel.of_eq (x := pyGet r.lut _) rfl).bind fun q q' hq => ?_
      subst hq
      refine (PyRel.get hF _).bind fun t3 t3' h3 => ?_
      have e3 := h3.eq
      subst e3
      have start : Same b (K + 4) { r with lut := [q], tt := [t3] } { r with lut := [q], tt := [t3] } :=
        ⟨rfl, by intro t ht; rw [List.mem_singleton.mp ht]; exact h3.mono (le_refl _) (by omega)⟩
      refine PyRel.bind (r := Same b (K + 4)) ?_ fun a a' ha => ?_
      · simp only [List.foldlM_cons, List.foldlM_nil]
        refine (inner_rel (c := c) (H := H) hpoint hps h4 h1 hstep hb (by omega) start 1 (by norm_num)).bind fun a a' ha => ?_
        refine (inner_rel (c := c) (H := H) hpoint hps h4 h1 hstep hb (by omega) ha 2 (by norm_num)).bind fun a a' ha => ?_
        refine (inner_rel (c := c) (H := H) hpoint hps h4 h1 hstep hb (by omega) ha 3 (by norm_num)).bind fun a a' ha => PyRel.pure ha
      · obtain ⟨rfl, hat⟩ := ha
        refine (PyRel.of_eq (x := pyGet r.lut _) rfl).bind fun q q' hq => ?_
        subst hq
        refine (PyRel.get hF _).bind fun t4 t4' h4' => ?_
        have e4 := h4'.eq
        subst e4
        refine ih (K := K + 4) (by omega) ⟨rfl, ?_⟩
        intro t ht
        simp only [List.mem_append, List.mem_singleton] at ht
        rcases ht with ht | rfl
        · exact hat t ht
        · exact h4'.mono (le_refl _) (by omega)

theorem mapM_rel {α β γ : Type} {s : β → γ → Prop} {f : α → Py β} {g : α → Py γ} (l : List α) (h : ∀ x ∈ l, PyRel s (f x) (g x)) :
    PyRel (List.Forall₂ s) (l.mapM f) (l.mapM g) := by
  induction l with
  | nil => exact List.Forall₂.nil
  | cons x l ih =>
    rw [List.mapM_cons, List.mapM_cons]
    exact (h x (by simp)).bind fun a a' ha => (ih fun y hy => h y (by simp [hy])).bind fun r r' hr => PyRel.pure (.cons ha hr)

theorem nat_safe {n : ℕ} (h : n ≤ 2 ^ 40) : Safe 0 40 (n : ℝ) n := by
  have := Safe.int (n : ℤ) (k := 40) (by
    rw [abs_of_nonneg (by positivity)]
    have : ((n : ℕ) : ℝ) ≤ ((2 ^ 40 : ℕ) : ℝ) := by exact_mod_cast h
    push_cast at this ⊢
    linarith)
  simpa using this

theorem int_safe {n : ℤ} (h0 : -1 ≤ n) (h : n ≤ 2 ^ 40) : Safe 0 40 (n : ℝ) n := by
  refine Safe.int n ?_
  have h1 : (n : ℝ) ≤ ((2 ^ 40 : ℤ) : ℝ) := by exact_mod_cast h
  have h2 : ((-1 : ℤ) : ℝ) ≤ (n : ℝ) := by exact_mod_cast h0
  push_cast at h1 h2
  rw [abs_le]
  constructor <;> linarith

theorem lutOf_rel {ps : Segment ℝ} (hps : SafeSeg 100 100 ps ps) (h4 : ps.length ≤ 4) (steps : ℤ) (hs : steps ≤ 2 ^ 40) :
    PyRel (List.Forall₂ (SafePt 379 228)) (Rounded.lutOf (double c) ps steps) (Rounded.lutOf float ps steps) := by
  unfold Rounded.lutOf
  refine mapM_rel _ fun t ht => ?_
  have ht := List.mem_range.mp ht
  refine (pdiv_rel (c := c) (nat_safe (n := t) (by omega)) (int_safe (n := steps - 1) (by omega) (by omega)) (by norm_num) (by norm_num)).bind
    fun x y hxy => ?_
  have := hxy.eq
  subst this
  exact get_rel (c := c) hps h4 hxy (by norm_num) (by norm_num)

theorem forall_refl {l l' : List (Pt ℝ)} (h : List.Forall₂ (SafePt e k) l l') : l = l' ∧ ∀ p ∈ l, SafePt e k p p := by
  induction h with
  | nil => exact ⟨rfl, by simp⟩
  | cons h1 _ ih =>
    refine ⟨by rw [h1.eq, ih.1], ?_⟩
    intro p hp
    rcases List.mem_cons.mp hp with rfl | hp
    · exact SafePt.refl_of h1
    · exact ih.2 p hp

theorem lutOf_length {R : Rounding} {ps : Segment ℝ} {steps : ℤ} {l : List (Pt ℝ)} (h : Rounded.lutOf R ps steps = .ok l) :
    l.length = steps.toNat := by
  have key : ∀ {α β : Type} {f : α → Py β} (xs : List α) {ys : List β}, xs.mapM f = .ok ys → ys.length = xs.length := by
    intro α β f xs
    induction xs with
    | nil => intro ys h; cases h; rfl
    | cons x xs ih =>
      intro ys h
      rw [List.mapM_cons] at h
      obtain ⟨y, -, h⟩ := bind_eq_ok.mp h
      obtain ⟨r, hr, h⟩ := bind_eq_ok.mp h
      cases h
      simp [ih hr]
  have := key _ h
  simpa using this

theorem refineBinary_eq {point : Pt ℝ} (hpoint : SafePt 100 100 point point) {ps : Segment ℝ} (hps : SafeSeg 100 100 ps ps)
    (h4 : ps.length ≤ 4) (lut : List (Pt ℝ)) (hl : lut.length ≤ 2 ^ 40) (i : ℤ) :
    Rounded.refineBinary (double c) H point ps lut i = Rounded.refineBinary float H point ps lut i := by
  apply PyRel.eq
  unfold Rounded.refineBinary
  refine PyRel.bind (r := List.Forall₂ (Safe 93 40)) (mapM_rel _ fun t ht => ?_) fun tt tt' htt => ?_
  · have ht := List.mem_range.mp ht
    have hd : Safe 0 40 ((lut.length : ℝ) - 1) ((lut.length : ℝ) - 1) := by
      have := int_safe (n := (lut.length : ℤ) - 1) (by omega) (by omega)
      push_cast at this
      exact this
    exact pdiv_rel (c := c) (nat_safe (n := t) (by omega)) hd (by norm_num) (by norm_num)
  · have hsame : tt = tt' ∧ ∀ t ∈ tt, Safe 93 40 t t := by
      clear hpoint hps h4 hl
      induction htt with
      | nil => exact ⟨rfl, by simp⟩
      | cons h1 _ ih =>
        refine ⟨by rw [h1.eq, ih.1], ?_⟩
        intro p hp
        rcases List.mem_cons.mp hp with rfl | hp
        · have := h1.eq; subst this; exact h1
        · exact ih.2 p hp
    obtain ⟨rfl, hs⟩ := hsame
    refine (loop_rel (c := c) (H := H) (b := 93) hpoint hps h4 (by norm_num) (by norm_num) 25 (K := 40) (by norm_num) ⟨rfl, hs⟩).bind
      fun r r' hr => ?_
    subst hr
    rfl

theorem findClosest_eq {point : Pt ℝ} (hpoint : SafePt 379 228 point point) {lut : List (Pt ℝ)} (hl : ∀ p ∈ lut, SafePt 379 228 p p) :
    Rounded.findClosest (double c) H point lut = Rounded.findClosest float H point lut := by
  unfold Rounded.findClosest
  have key : ∀ i : ℕ, SafePt 379 228 (lut.getD i (0, 0)) (lut.getD i (0, 0)) := by
    intro i
    rw [List.getD_eq_getElem?_getD]
    cases h : lut[i]? with
    | none => exact ⟨⟨rfl, ⟨0, by simp⟩, by simp⟩, ⟨rfl, ⟨0, by simp⟩, by simp⟩⟩
    | some p => exact hl p (List.mem_of_getElem? h)
  simp only [dist_eq (c := c) (H := H) (key _) hpoint (by norm_num) (by norm_num)]

/-- A curve of the contour as the search uses it. -/
def SafeCurve (b : Bezier) : Prop := SafeSeg 100 100 b.controlPoints b.controlPoints ∧ b.controlPoints.length ≤ 4

theorem closestOn_eq {point : Pt ℝ} (hpoint : SafePt 100 100 point point) (steps : ℤ) (hs : steps ≤ 2 ^ 40) (curve : Bezier)
    (curve2 : Option Bezier) (h1 : SafeCurve curve) (h2 : ∀ x, curve2 = some x → SafeCurve x) (i : ℤ) :
    Rounded.closestOn (double c) H point steps curve curve2 i = Rounded.closestOn float H point steps curve curve2 i := by
  have lut_eq : ∀ b : Bezier, SafeCurve b → Rounded.lutOf (double c) b.controlPoints steps = Rounded.lutOf float b.controlPoints steps :=
    fun b hb => ((lutOf_rel (c := c) hb.1 hb.2 steps hs).imp fun _ _ h => (forall_refl h).1).eq
  unfold Rounded.closestOn
  rw [lut_eq curve h1]
  cases hl : Rounded.lutOf float curve.controlPoints steps with
  | error er => simp only [error_bind]
  | ok l =>
    simp only [ok_bind]
    rw [refineBinary_eq (c := c) hpoint h1.1 h1.2 l (by rw [lutOf_length hl]; omega)]
    cases curve2 with
    | none => simp only
    | some x =>
      have hx := h2 x rfl
      simp only
      rw [lut_eq x hx]
      cases hl2 : Rounded.lutOf float x.controlPoints steps with
      | error er => simp only [error_bind]
      | ok l2 =>
        simp only [ok_bind]
        rw [refineBinary_eq (c := c) hpoint hx.1 hx.2 l2 (by rw [lutOf_length hl2]; omega)]

theorem lutLoop_eq (steps : ℤ) (hs : steps ≤ 2 ^ 40) (bs : List Bezier) (hb : ∀ b ∈ bs, SafeCurve b) :
    ∀ (start : ℕ) (lut : List (Pt ℝ)), (∀ p ∈ lut, SafePt 379 228 p p) →
    Rounded.lutLoop (double c) steps bs start lut = Rounded.lutLoop float steps bs start lut ∧
    ∀ p ∈ (Rounded.lutLoop float steps bs start lut).2, SafePt 379 228 p p := by
  induction bs with
  | nil => intro start lut h; exact ⟨rfl, h⟩
  | cons b bs ih =>
    intro start lut h
    have hr := lutOf_rel (c := c) (hb b (by simp)).1 (hb b (by simp)).2 steps hs
    have he := (hr.imp fun _ _ h => (forall_refl h).1).eq
    rw [Rounded.lutLoop, Rounded.lutLoop, he]
    rw [he] at hr
    cases hl : Rounded.lutOf float b.controlPoints steps with
    | error er => exact ⟨rfl, h⟩
    | ok l =>
      rw [hl] at hr
      refine ih (fun x hx => hb x (by simp [hx])) 1 _ ?_
      intro p hp
      rcases List.mem_append.mp hp with hp | hp
      · exact h p hp
      · exact (forall_refl hr).2 p (List.mem_of_mem_drop hp)

theorem search_eq {point : Pt ℝ} (hpoint : SafePt 100 100 point point) (steps : ℤ) (hs : steps ≤ 2 ^ 40) (bc : BContour)
    (hb : ∀ b ∈ bc.beziers, SafeCurve b) (hl : ∀ p ∈ bc.lut, SafePt 379 228 p p) :
    Rounded.findClosestPoint (double c) H point steps bc = Rounded.findClosestPoint float H point steps bc ∧
    (Rounded.findClosestPoint float H point steps bc).2.beziers = bc.beziers ∧
    ∀ p ∈ (Rounded.findClosestPoint float H point steps bc).2.lut, SafePt 379 228 p p := by
  have getLUT : Rounded.getLUT (double c) steps bc = Rounded.getLUT float steps bc ∧
      (Rounded.getLUT float steps bc).2.beziers = bc.beziers ∧ (∀ p ∈ (Rounded.getLUT float steps bc).2.lut, SafePt 379 228 p p) ∧
      ∀ l, (Rounded.getLUT float steps bc).1 = .ok l → ∀ p ∈ l, SafePt 379 228 p p := by
    unfold Rounded.getLUT
    split_ifs
    · exact ⟨rfl, rfl, hl, by rintro l ⟨⟩; exact hl⟩
    · obtain ⟨h1, h2⟩ := lutLoop_eq (c := c) steps hs bc.beziers hb 0 [] (by simp)
      rw [h1]
      rcases hr : Rounded.lutLoop float steps bc.beziers 0 [] with ⟨_ | _, lut⟩
      · rw [hr] at h2; exact ⟨rfl, rfl, h2, by rintro l ⟨⟩⟩
      · rw [hr] at h2; exact ⟨rfl, rfl, h2, by rintro l ⟨⟩; exact h2⟩
  obtain ⟨g1, g2, g3, g4⟩ := getLUT
  unfold Rounded.findClosestPoint
  rw [g1]
  rcases hr : Rounded.getLUT float steps bc with ⟨_ | lut, bc'⟩
  · rw [hr] at g2 g3
    simp only at g2 g3 ⊢
    exact ⟨trivial, g2, g3⟩
  · rw [hr] at g2 g3 g4
    simp only at g2 g3 g4 ⊢
    refine ⟨?_, g2, g3⟩
    rw [findClosest_eq (c := c) (hpoint.mono (by norm_num) (by norm_num)) (g4 lut rfl)]
    congr 1
    cases hp : pick bc'.beziers steps (Rounded.findClosest float H point lut) with
    | error er => simp only [error_bind]
    | ok x =>
      obtain ⟨b1, b2, i⟩ := x
      obtain ⟨m1, m2⟩ := pick_mem hp
      rw [g2] at m1 m2
      simp only [ok_bind]
      exact closestOn_eq hpoint steps hs b1 b2 (hb b1 m1) (fun x hx => hb x (m2 x hx)) i

theorem pt_moderate {p : Pt ℝ} (h : ModeratePt p) : SafePt 100 100 p p := ⟨safe_moderate h.1, safe_moderate h.2⟩

theorem seg_moderate {ps : Segment ℝ} (h : ∀ p ∈ ps, ModeratePt p) : SafeSeg 100 100 ps ps := by
  induction ps with
  | nil => exact .nil
  | cons p ps ih => exact .cons (pt_moderate (h p (by simp))) (ih fun q hq => h q (by simp [hq]))

theorem searches_eq (bc : BContour) (hb : ∀ b ∈ bc.beziers, SafeCurve b) (hl : ∀ p ∈ bc.lut, SafePt 379 228 p p)
    (qs : List (Pt ℝ × ℤ)) (hq : ∀ q ∈ qs, ModeratePt q.1 ∧ q.2 ≤ 2 ^ 40) :
    searches (double c) H bc qs = searches float H bc qs := by
  induction qs generalizing bc with
  | nil => rfl
  | cons q qs ih =>
    obtain ⟨h1, h2, h3⟩ := search_eq (c := c) (H := H) (pt_moderate (hq q (by simp)).1) q.2 (hq q (by simp)).2 bc hb hl
    rw [searches, searches, h1]
    simp only
    rw [ih _ (by rw [h2]; exact hb) h3 fun x hx => hq x (by simp [hx])]

end DoubleClosest

section
variable {c : ℝ}

/-- C124: closest point searches, any number of them on the same contour, neither underflow nor overflow: they give the same points and
the same distances and leave the same lookup table. -/
theorem C124_closest (H : Hypot) (contour : Contour ℝ) (h4 : ∀ s ∈ contour, s.length ≤ 4) (hm : ∀ s ∈ contour, ∀ p ∈ s, ModeratePt p)
    (bc : BContour) (h : BContour.new contour = .ok bc) (qs : List (Pt ℝ × ℤ)) (hq : ∀ q ∈ qs, ModeratePt q.1 ∧ q.2 ≤ 2 ^ 40) :
    searches (double c) H bc qs = searches float H bc qs := by
  have hpts : bc.beziers.map (·.controlPoints) = contour := (C52_history contour bc h []).1
  have hmem : ∀ b ∈ bc.beziers, b.controlPoints ∈ contour := fun b hb => by rw [← hpts]; exact List.mem_map_of_mem hb
  have hlut : bc.lut = [] := by
    unfold BContour.new at h
    simp only [bind_eq_ok] at h
    obtain ⟨_, -, _, -, _, -, _, -, _, -, h⟩ := h
    cases h
    rfl
  refine DoubleClosest.searches_eq bc (fun b hb => ⟨DoubleClosest.seg_moderate (hm _ (hmem b hb)), h4 _ (hmem b hb)⟩) ?_ qs hq
  rw [hlut]; simp

/-- A contour and searches as in C124: a triangle and a curve. -/
example : (∀ s ∈ ([[(0, 0), (10, 0)], [(10, 0), (12, 7), (0, 0)]] : Contour ℝ), s.length ≤ 4) ∧
    (∀ s ∈ ([[(0, 0), (10, 0)], [(10, 0), (12, 7), (0, 0)]] : Contour ℝ), ∀ p ∈ s, ModeratePt p) ∧
    (∃ bc, BContour.new ([[(0, 0), (10, 0)], [(10, 0), (12, 7), (0, 0)]] : Contour ℝ) = .ok bc) ∧
    ∀ q ∈ [((3, 5), (25 : ℤ)), ((10, 7), 100)], ModeratePt q.1 ∧ q.2 ≤ 2 ^ 40 := by
  have i : ∀ m : ℤ, |m| ≤ 32768 → Moderate (m : ℝ) := fun m hm => (C124_grid (p := ((m : ℝ), (m : ℝ))) ⟨m, m, hm, hm, rfl⟩).1
  have n0 : Moderate 0 := by simpa using i 0 (by norm_num)
  have n3 : Moderate 3 := by simpa using i 3 (by norm_num)
  have n5 : Moderate 5 := by simpa using i 5 (by norm_num)
  have n7 : Moderate 7 := by simpa using i 7 (by norm_num)
  have n10 : Moderate 10 := by simpa using i 10 (by norm_num)
  have n12 : Moderate 12 := by simpa using i 12 (by norm_num)
  refine ⟨by simp, ?_, (C52_new _).mpr ⟨by simp, by simp⟩, ?_⟩
  · simp only [List.mem_cons, List.not_mem_nil, or_false, forall_eq_or_imp, forall_eq]
    exact ⟨⟨⟨n0, n0⟩, ⟨n10, n0⟩⟩, ⟨n10, n0⟩, ⟨n12, n7⟩, ⟨n0, n0⟩⟩
  · simp [ModeratePt, n3, n5, n7, n10]

/-- C124: so the search on a new contour is as good in double precision as C103 shows it to be without limits of the exponent. -/
theorem C124_closest_error (contour : Contour ℝ) (bc : BContour) (h : BContour.new contour = .ok bc) (h4 : ∀ s ∈ contour, s.length ≤ 4)
    (hm : ∀ s ∈ contour, ∀ p ∈ s, ModeratePt p) (B : ℝ) (hB51 : B ≤ 2 ^ 51) (hB : ∀ s ∈ contour, ∀ p ∈ s, |p.1| ≤ B ∧ |p.2| ≤ B) (p : Pt ℝ)
    (hp : |p.1| ≤ B ∧ |p.2| ≤ B) (hpm : ModeratePt p) (H : Hypot) (hH : H.err ≤ 1 / 2 ^ 52) (n : Nat) (hn : 2 ≤ n) (h201 : n ≤ 201) (L : ℝ)
    (hL : ∀ s ∈ contour, SpeedAtMost s L) :
    ∃ d q, (Rounded.findClosestPoint (double c) H p n bc).1 = .ok (d, q) ∧
      (∃ s ∈ contour, ∃ t, 0 < t ∧ t < 1 ∧ ∃ q', Bezier.get s t = .ok q' ∧ Close (B / 10 ^ 15) q q' ∧
        |d - distance q' p| ≤ 3 * B / 10 ^ 15) ∧
      ∀ s ∈ contour, ∀ t, 0 ≤ t → t ≤ 1 → ∀ q', Bezier.get s t = .ok q' →
        d ≤ distance q' p + 9 / 5 * (L / ((n : ℝ) - 1)) + (9 * B + L) / 10 ^ 15 := by
  have key := C124_closest (c := c) H contour h4 hm bc h [(p, (n : ℤ))] (by
    intro q hq
    rw [List.mem_singleton.mp hq]
    exact ⟨hpm, by simp only; omega⟩)
  simp only [searches] at key
  have e : (Rounded.findClosestPoint (double c) H p n bc).1 = (Rounded.findClosestPoint float H p n bc).1 := by
    have := congrArg Prod.fst key
    simpa using this
  rw [e]
  exact C103_any_contour contour bc h h4 B hB51 hB p hp H hH n hn h201 L hL

end
end PathLib
