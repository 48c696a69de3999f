import Verif.Props.Double
import Verif.Props.DoubleClosest
import Verif.Props.RoundedIntersect

/-!
# Intersections of curves in double precision: C124

In `hull` at 1/2 every new point is between two old ones, also after rounding; so the size of the numbers does not grow with the depth of the
recursion, and each halving adds at most three bits.
-/

namespace PathLib

open Spec Bezier Rounded

/-- A curve whose coordinates are multiples of `2 ^ -60`, such as all floats from 1/128 on, and whose parameters are moderate. -/
structure Spec.FineStart (c : Part) : Prop extends Start c where
  grid : ∀ p ∈ c.points, (∃ m : ℤ, p.1 = m / 2 ^ 60) ∧ (∃ m : ℤ, p.2 = m / 2 ^ 60)
  param : ModerateParameter c.t1 ∧ ModerateParameter c.t2

namespace DoubleIntersect

variable {c : ℝ} {e k f l : ℕ}

theorem half_between (x y : ℝ) : ∃ r, 0 ≤ r ∧ r ≤ 1 ∧ float.mul (1 / 2) (float.sub y x) = r * (y - x) := by
  have hu : float.u ≤ 1 / 4 := by
    show (2:ℝ) ^ (-((52 + 1 : ℕ) : ℤ)) ≤ 1 / 4
    norm_num
  have hu0 := float.u_nonneg
  unfold Rounding.mul Rounding.sub
  generalize y - x = d
  have e1 := float.error d
  have e2 := float.error (1 / 2 * float.rnd d)
  generalize float.rnd (1 / 2 * float.rnd d) = g at *
  generalize float.rnd d = h at *
  generalize float.u = u at *
  rcases eq_or_ne d 0 with rfl | hd
  · refine ⟨0, le_rfl, zero_le_one, ?_⟩
    have h0 : h = 0 := by simpa using e1
    rw [h0] at e2
    simpa using e2
  · have hd' : 0 < |d| := abs_pos.mpr hd
    have a1 : |h / d - 1| ≤ u := by
      rw [show h / d - 1 = (h - d) / d by field_simp, abs_div, div_le_iff₀ hd']; exact e1
    have a2 : |g / d - 1 / 2 * (h / d)| ≤ u * |1 / 2 * (h / d)| := by
      rw [show g / d - 1 / 2 * (h / d) = (g - 1 / 2 * h) / d by field_simp, show 1 / 2 * (h / d) = (1 / 2 * h) / d by ring, abs_div, abs_div, ← mul_div_assoc]
      exact (div_le_div_iff_of_pos_right hd').mpr e2
    rw [abs_le] at a1
    have hq : 0 ≤ 1 / 2 * (h / d) := by linarith [a1.1]
    rw [abs_of_nonneg hq, abs_le] at a2
    refine ⟨g / d, ?_, ?_, by field_simp⟩
    · nlinarith [a2.1]
    · nlinarith [a2.2, a1.2]

theorem half_le {x y : ℝ} (hx : |x| ≤ 2 ^ k) (hy : |y| ≤ 2 ^ k) : |(binary 52).add x ((binary 52).mul (1 / 2) ((binary 52).sub y x))| ≤ 2 ^ k := by
  obtain ⟨r, h0, h1, hr⟩ := half_between x y
  have hr' : (binary 52).mul (1 / 2) ((binary 52).sub y x) = r * (y - x) := hr
  rw [hr']
  show |roundBits 53 (x + r * (y - x))| ≤ 2 ^ k
  rw [← zpow_natCast]
  refine abs_roundBits_le ?_
  rw [zpow_natCast, abs_le] at *
  constructor <;> nlinarith

theorem safe_half : Safe 1 0 (1 / 2 : ℝ) (1 / 2) := ⟨rfl, ⟨1, by norm_num⟩, by rw [abs_of_pos (by norm_num)]; norm_num⟩

theorem lerp_half (he : e + 1 ≤ 1074) (hk : k + 2 ≤ 1023) {p q p' q' : Pt ℝ} (h : SafePt e k p p') (h' : SafePt e k q q') :
    SafePt (e + 1) k (Rounded.lerp (double c) (1 / 2) p q) (Rounded.lerp (binary 52).toRounding (1 / 2) p' q') := by
  have term : ∀ x x' y y', Safe e k x x' → Safe e k y y' → Safe (e + 1) k
      ((double c).add x ((double c).mul (1 / 2) ((double c).sub y x))) ((binary 52).add x' ((binary 52).mul (1 / 2) ((binary 52).sub y' x'))) := by
    intro x x' y y' a a'
    have m := safe_half.mul (c := c) (a'.sub (c := c) a (by omega) (by omega)) (by omega) (by omega)
    have s := (a.mono (show e ≤ 1 + e by omega) (show k ≤ 0 + (k + 1) by omega)).add (c := c) m (by omega) (by omega)
    refine ⟨s.eq, s.multiple.mono (by omega), ?_⟩
    rw [s.eq]
    obtain ⟨rfl, _, b⟩ := a
    obtain ⟨rfl, _, b'⟩ := a'
    exact half_le b b'
  exact ⟨term _ _ _ _ h.1 h'.1, term _ _ _ _ h.2 h'.2⟩

theorem hullLoop_half (n : ℕ) {ps qs : Segment ℝ} (h : SafeSeg e k ps qs) (hn : ps.length ≤ n + 1)
    (he : e + n ≤ 1074) (hk : k + 2 ≤ 1023) :
    SafeSeg (e + n) k (Rounded.hullLoop (double c) (1 / 2) ps) (Rounded.hullLoop (binary 52).toRounding (1 / 2) qs) := by
  induction n generalizing e ps qs with
  | zero =>
    rw [Rounded.hullLoop.eq_def (double c) (1 / 2) ps, Rounded.hullLoop.eq_def (binary 52).toRounding (1 / 2) qs, if_neg (by omega),
      if_neg (by rw [← h.length_eq]; omega)]
    exact .nil
  | succ n ih =>
    rw [Rounded.hullLoop.eq_def (double c) (1 / 2) ps, Rounded.hullLoop.eq_def (binary 52).toRounding (1 / 2) qs]
    by_cases h1 : ps.length > 1
    · rw [if_pos h1, if_pos (by rw [← h.length_eq]; exact h1)]
      have st : SafeSeg (e + 1) k (Rounded.hullStep (double c) (1 / 2) ps) (Rounded.hullStep (binary 52).toRounding (1 / 2) qs) :=
        SafeSeg.zipWith (fun _ _ _ _ ha hb => lerp_half (by omega) hk ha hb) h h.tail
      refine List.rel_append (st.mono (by omega) le_rfl) ((ih st ?_ (by omega)).mono (by omega) le_rfl)
      rw [Rounded.hullStep_length]; omega
    · rw [if_neg h1, if_neg (by rw [← h.length_eq]; exact h1)]
      exact .nil

theorem split_half {ps qs : Segment ℝ} (h : SafeSeg e k ps qs) (h4 : ps.length ≤ 4) (he : e + 3 ≤ 1074) (hk : k + 2 ≤ 1023) :
    PyRel (fun x y => (SafeSeg (e + 3) k x.1 y.1 ∧ x.1.length ≤ 4) ∧ SafeSeg (e + 3) k x.2 y.2 ∧ x.2.length ≤ 4)
      (Rounded.splitPoints (double c) ps (1 / 2)) (Rounded.splitPoints (binary 52).toRounding qs (1 / 2)) := by
  have hh : SafeSeg (e + 3) k (Rounded.hull (double c) ps (1 / 2)) (Rounded.hull (binary 52).toRounding qs (1 / 2)) := by
    unfold Rounded.hull
    exact List.rel_append (h.mono (by omega) le_rfl) (hullLoop_half 3 h h4 he hk)
  have ho : order ps = order qs := by unfold order; rw [h.length_eq]
  unfold Rounded.splitPoints
  rw [← ho]
  simp only
  split_ifs
  · refine (PyRel.get hh _).bind fun _ _ s0 => (PyRel.get hh _).bind fun _ _ s1 => (PyRel.get hh _).bind fun _ _ s2 =>
      (PyRel.get hh _).bind fun _ _ s3 => (PyRel.get hh _).bind fun _ _ s4 => (PyRel.get hh _).bind fun _ _ s5 => PyRel.pure ?_
    exact ⟨⟨.cons s0 (.cons s1 (.cons s2 .nil)), by simp⟩, .cons s3 (.cons s4 (.cons s5 .nil)), by simp⟩
  · refine (PyRel.get hh _).bind fun _ _ s0 => (PyRel.get hh _).bind fun _ _ s1 => (PyRel.get hh _).bind fun _ _ s2 =>
      (PyRel.get hh _).bind fun _ _ s3 => (PyRel.get hh _).bind fun _ _ s4 => (PyRel.get hh _).bind fun _ _ s5 =>
      (PyRel.get hh _).bind fun _ _ s6 => (PyRel.get hh _).bind fun _ _ s7 => PyRel.pure ?_
    exact ⟨⟨.cons s0 (.cons s1 (.cons s2 (.cons s3 .nil))), by simp⟩, .cons s4 (.cons s5 (.cons s6 (.cons s7 .nil))), by simp⟩

/-- The same part was computed. -/
structure SafePart (e k f l : ℕ) (p q : Part) : Prop where
  points : SafeSeg e k p.points q.points
  len : p.points.length ≤ 4
  t1 : Safe f l p.t1 q.t1
  t2 : Safe f l p.t2 q.t2

theorem SafePart.eq {p q : Part} (h : SafePart e k f l p q) : p = q := by
  obtain ⟨ps, a, b⟩ := p
  obtain ⟨qs, a', b'⟩ := q
  have h1 := h.points.eq
  have h2 := h.t1.eq
  have h3 := h.t2.eq
  simp only at h1 h2 h3
  subst h1 h2 h3
  rfl

theorem map_rel {v : ℝ} (hv : Safe 1 0 v v) (hr : float.rnd v = v) {a b a' b' : ℝ} (ha : Safe f l a a') (hb : Safe f l b b') (hf : f + 1 ≤ 1074)
    (hl : l + 2 ≤ 1023) :
    PyRel (Safe (f + 1) (l + 2)) (Rounded.map (double c) v 0 1 a b) (Rounded.map (binary 52).toRounding v 0 1 a' b') := by
  have r1 : (binary 52).rnd (1:ℝ) = 1 := by
    have := roundBits_power 0
    rw [zpow_zero] at this
    exact this
  have s1 : Safe 1 0 (1:ℝ) 1 := ⟨rfl, ⟨2, by norm_num⟩, by norm_num⟩
  have d1 : (double c).rnd 1 = 1 := by rw [(s1.round (c := c) (by norm_num) (by norm_num)).eq, r1]
  have hr' : (binary 52).rnd v = v := hr
  have dv : (double c).rnd v = v := by rw [(hv.round (c := c) (by norm_num) (by norm_num)).eq, hr']
  have key : ∀ (R : Rounding) (a b : ℝ), R.rnd 1 = 1 → R.rnd v = v → Rounded.map R v 0 1 a b = .ok (R.add a (R.mul (R.sub b a) v)) := by
    intro R a b h1 h2
    unfold Rounded.map Rounded.pdiv Rounding.div
    have e1 : R.sub 1 0 = 1 := by unfold Rounding.sub; rw [sub_zero, h1]
    have e2 : R.sub v 0 = v := by unfold Rounding.sub; rw [sub_zero, h2]
    simp only [e1, e2, div_one, h2, one_ne_zero, if_false, ok_bind]
    rfl
  rw [key _ a b d1 dv, key _ a' b' r1 hr']
  have m := (hb.sub (c := c) ha (by omega) (by omega)).mul (c := c) hv (by omega) (by omega)
  exact (ha.mono (show f ≤ f + 1 by omega) (show l ≤ l + 1 + 0 by omega)).add m (by omega) (by omega)

theorem split1_rel {p q : Part} (h : SafePart e k f l p q) (he : e + 3 ≤ 1074) (hk : k + 2 ≤ 1023) (hf : f + 1 ≤ 1074) (hl : l + 2 ≤ 1023) :
    PyRel (fun x y => SafePart (e + 3) k (f + 1) (l + 2) x.1 y.1 ∧ SafePart (e + 3) k (f + 1) (l + 2) x.2 y.2)
      (Rounded.split1 (double c) p (1 / 2)) (Rounded.split1 (binary 52).toRounding q (1 / 2)) := by
  have p0 : float.rnd (0:ℝ) = 0 := float.rnd_zero
  have p1 : float.rnd (1:ℝ) = 1 := by
    have := roundBits_power 0
    rw [zpow_zero] at this
    exact this
  have ph : float.rnd (1 / 2 : ℝ) = 1 / 2 := by
    have := roundBits_power (-1)
    rw [zpow_neg_one, ← one_div] at this
    exact this
  have s1 : Safe 1 0 (1:ℝ) 1 := ⟨rfl, ⟨2, by norm_num⟩, by norm_num⟩
  have s0 : Safe 1 0 (0:ℝ) 0 := ⟨rfl, ⟨0, by norm_num⟩, by norm_num⟩
  unfold Rounded.split1
  refine (split_half h.points h.len he hk).bind ?_
  rintro ⟨x1, x2⟩ ⟨y1, y2⟩ ⟨⟨a1, a2⟩, a3, a4⟩
  refine (map_rel s0 p0 h.t1 h.t2 hf hl).bind fun _ _ b1 => (map_rel safe_half ph h.t1 h.t2 hf hl).bind fun _ _ b2 =>
    (map_rel safe_half ph h.t1 h.t2 hf hl).bind fun _ _ b3 => (map_rel s1 p1 h.t1 h.t2 hf hl).bind fun _ _ b4 => PyRel.pure ?_
  exact ⟨⟨a1, a2, b1, b2⟩, ⟨a3, a4, b3, b4⟩⟩

theorem bounds_eq {ps : Segment ℝ} (h : SafeSeg e k ps ps) (h4 : ps.length ≤ 4) (hm : 4 * e + 3 * k ≤ 729) :
    Rounded.boundsRectangle (double c) ps = Rounded.boundsRectangle (binary 52).toRounding ps := by
  unfold Rounded.boundsRectangle
  rw [bbox_eq h h4 hm]

theorem minmax_safe {b : ℕ} {ps : Segment ℝ} (h : SafeSeg e k ps ps) (h4 : ps.length ≤ 4) (d : Fin 2) (l : List ℝ) (hl : ∀ t ∈ l, Safe b 0 t t)
    (he : 3 * b + e ≤ 1074) (hk : k + 60 ≤ 1023) {r : ℝ × ℝ} (hr : Rounded.minmaxLoop (binary 52).toRounding ps d l = .ok r) :
    SafePt 1074 (k + 60) r r := by
  unfold Rounded.minmaxLoop at hr
  have h0 : SafePt 1074 (k + 60) ((maxSafe, minSafe) : ℝ × ℝ) (maxSafe, minSafe) := by
    have key : ∀ m : ℤ, |m| ≤ 2 ^ 53 → Safe 1074 (k + 60) (m : ℝ) m := fun m hm =>
      (Safe.int (k := 53) m (by exact_mod_cast hm)).mono (by omega) (by omega)
    have a := key 9007199254740991 (by norm_num)
    have b := key (-9007199254740991) (by norm_num)
    push_cast at a b
    exact ⟨a, b⟩
  generalize ((maxSafe, minSafe) : ℝ × ℝ) = acc at hr h0
  induction l generalizing acc with
  | nil => cases hr; exact h0
  | cons t l ih =>
    rw [List.foldlM_cons] at hr
    obtain ⟨acc', h1, h2⟩ := bind_eq_ok.mp hr
    refine ih (fun t ht => hl t (by simp [ht])) acc' h2 ?_
    obtain ⟨q, hq, h3⟩ := bind_eq_ok.mp h1
    have hg := get_rel (c := 0) h h4 (hl t (by simp)) he (show 3 * 0 + k + 10 ≤ 1023 by omega)
    rw [hq] at hg
    have hs : SafePt 1074 (k + 60) q q := by
      cases hd : Rounded.get (double 0) ps t with
      | error _ => rw [hd] at hg; exact hg.elim
      | ok p =>
        rw [hd] at hg
        have hp : SafePt _ _ p q := hg
        have he := hp.eq
        subst he
        exact hp.mono (by omega) (by omega)
    have hc : Safe 1074 (k + 60) (coord d q) (coord d q) := by
      unfold coord; split_ifs
      · exact hs.1
      · exact hs.2
    cases h3
    constructor
    · simp only; split_ifs
      · exact hc
      · exact h0.1
    · simp only; split_ifs
      · exact hc
      · exact h0.2

/-- The edges of a rectangle. -/
structure SafeBox (e k : ℕ) (b : BoundsRectangle ℝ) : Prop where
  left : Safe e k b.left b.left
  bottom : Safe e k b.bottom b.bottom
  right : Safe e k b.right b.right
  top : Safe e k b.top b.top

theorem box_new {ps : Segment ℝ} (h : ∀ p ∈ ps, SafePt e k p p) (hk : 15 ≤ k) : SafeBox e k (BoundsRectangle.new ps) := by
  have key : ∀ (l : Segment ℝ) (b : BoundsRectangle ℝ), (∀ p ∈ l, SafePt e k p p) → SafeBox e k b → SafeBox e k (l.foldl BoundsRectangle.addPoint b) := by
    intro l
    induction l with
    | nil => intro b _ hb; exact hb
    | cons p l ih =>
      intro b hl hb
      refine ih _ (fun q hq => hl q (by simp [hq])) ?_
      have hp := hl p (by simp)
      have mn : ∀ x y : ℝ, Safe e k x x → Safe e k y y → Safe e k (pyMin x y) (pyMin x y) := fun x y hx hy => by
        unfold pyMin; split_ifs <;> assumption
      have mx : ∀ x y : ℝ, Safe e k x x → Safe e k y y → Safe e k (pyMax x y) (pyMax x y) := fun x y hx hy => by
        unfold pyMax; split_ifs <;> assumption
      exact ⟨mn _ _ hb.left hp.1, mn _ _ hb.bottom hp.2, mx _ _ hb.right hp.1, mx _ _ hb.top hp.2⟩
  refine key ps _ h ?_
  have k15 : ∀ m : ℤ, |m| ≤ 2 ^ 15 → Safe e k (m : ℝ) m := fun m hm =>
    (Safe.int (k := 15) m (by exact_mod_cast hm)).mono (by omega) (by omega)
  have a := k15 32768 (by norm_num)
  have b := k15 (-32768) (by norm_num)
  push_cast at a b
  exact ⟨a, a, b, b⟩

theorem bounds_safe {ps : Segment ℝ} (h : SafeSeg e k ps ps) (h4 : ps.length ≤ 4) (hm : 4 * e + 3 * k ≤ 729) {b : BoundsRectangle ℝ}
    (hb : Rounded.boundsRectangle (binary 52).toRounding ps = .ok b) : SafeBox 1074 (k + 60) b := by
  unfold Rounded.boundsRectangle at hb
  obtain ⟨⟨⟨x0, x1⟩, y0, y1⟩, h1, h2⟩ := bind_eq_ok.mp hb
  cases h2
  unfold Rounded.bbox at h1
  obtain ⟨ex, hex, h1⟩ := bind_eq_ok.mp h1
  obtain ⟨mx, hx, h1⟩ := bind_eq_ok.mp h1
  obtain ⟨my, hy, h1⟩ := bind_eq_ok.mp h1
  cases h1
  have hr := extrema_rel (c := 0) h h4 (by omega)
  rw [hex] at hr
  have hs : (∀ t ∈ ex.x, Safe (e + k + 115) 0 t t) ∧ ∀ t ∈ ex.y, Safe (e + k + 115) 0 t t := by
    cases hd : Rounded.extrema (double 0) ps with
    | error _ => rw [hd] at hr; exact hr.elim
    | ok x =>
      rw [hd] at hr
      obtain ⟨rfl, a, b⟩ := hr
      exact ⟨a, b⟩
  have ends : ∀ l : List ℝ, (∀ t ∈ l, Safe (e + k + 115) 0 t t) → ∀ t ∈ addEnds l, Safe (e + k + 115) 0 t t := by
    intro l hl t ht
    rw [mem_addEnds] at ht
    rcases ht with rfl | rfl | ht
    · exact ⟨rfl, ⟨0, by simp⟩, by simp⟩
    · have h1 : Safe 0 0 (1:ℝ) 1 := by simpa using Safe.int (k := 0) 1 (by norm_num)
      exact h1.mono (by omega) le_rfl
    · exact hl t ht
  have sx := minmax_safe h h4 0 _ (ends _ hs.1) (by omega) (by omega) hx
  have sy := minmax_safe h h4 1 _ (ends _ hs.2) (by omega) (by omega) hy
  refine box_new ?_ (by omega)
  simp only [List.mem_cons, List.not_mem_nil, or_false, forall_eq_or_imp, forall_eq]
  exact ⟨⟨sx.1, sy.1⟩, sx.2, sy.2⟩

theorem extent_eq {b : BoundsRectangle ℝ} (h : SafeBox 1074 k b) (hk : k + 2 ≤ 1023) :
    Rounded.extent (double c) b = Rounded.extent (binary 52).toRounding b := by
  unfold Rounded.extent
  exact ((h.top.sub (c := c) h.bottom le_rfl (by omega)).add (h.right.sub (c := c) h.left le_rfl (by omega)) le_rfl (by omega)).eq

theorem middle_eq {p : Part} (h : SafePart e k f l p p) (hf : f ≤ 500) (hl : l ≤ 500) :
    Rounded.middle (double c) p = Rounded.middle (binary 52).toRounding p := by
  unfold Rounded.middle
  have s2 : Safe 0 1 (2:ℝ) 2 := by simpa using Safe.int (k := 1) 2 (by norm_num)
  have s5 : Safe 0 17 (100000:ℝ) 100000 := by simpa using Safe.int (k := 17) 100000 (by norm_num)
  have a := h.t1.add (c := c) h.t2 (by omega) (by omega)
  exact (((s5.mul (c := c) a (by omega) (by omega)).div (c := c) s2 (by omega) (by omega)).div (c := c) s5 (by omega) (by omega)).eq

theorem overlaps_eq {p q : Part} {f' l' : ℕ} (h : SafePart e k f l p p) (h' : SafePart e k f' l' q q) (hm : 4 * e + 3 * k ≤ 729) :
    Rounded.overlaps (double c) p q = Rounded.overlaps (binary 52).toRounding p q := by
  unfold Rounded.overlaps
  rw [bounds_eq h.points h.len hm, bounds_eq h'.points h'.len hm]

theorem bind_congr {α β : Type} {x : Py α} {f g : α → Py β} (h : ∀ a, x = .ok a → f a = g a) : x >>= f = x >>= g := by
  cases x with
  | error _ => rfl
  | ok a => exact h a rfl

theorem mapM_congr {α β : Type} {f g : α → Py β} (l : List α) (h : ∀ x ∈ l, f x = g x) : l.mapM f = l.mapM g := by
  induction l with
  | nil => rfl
  | cons x l ih => rw [List.mapM_cons, List.mapM_cons, h x (by simp), ih fun y hy => h y (by simp [hy])]

theorem filterM_congr {α : Type} {f g : α → Py Bool} (l : List α) (h : ∀ x ∈ l, f x = g x) : l.filterM f = l.filterM g := by
  have key : ∀ (l acc : List α), (∀ x ∈ l, f x = g x) → l.filterAuxM f acc = l.filterAuxM g acc := by
    intro l
    induction l with
    | nil => intro acc _; rfl
    | cons x l ih =>
      intro acc hl
      unfold List.filterAuxM
      rw [hl x (by simp)]
      congr 1
      funext b
      exact ih _ fun y hy => hl y (by simp [hy])
  unfold List.filterM
  rw [key l [] h]

theorem pair_eq (depth : ℕ) {p q : Part} (h : SafePart e k f l p p) (h' : SafePart e k f l q q) (θ : ℝ) (hm : 4 * (e + 3 * depth) + 3 * k ≤ 729)
    (hf : f + depth ≤ 500) (hl : l + 2 * depth ≤ 500) :
    Rounded.pairiteration (double c) depth p q θ = Rounded.pairiteration (binary 52).toRounding depth p q θ := by
  induction depth generalizing e f l p q with
  | zero => rfl
  | succ depth ih =>
    unfold Rounded.pairiteration
    rw [bounds_eq h.points h.len (by omega), bounds_eq h'.points h'.len (by omega)]
    refine bind_congr fun b1 e1 => bind_congr fun b2 e2 => ?_
    rw [extent_eq (bounds_safe h.points h.len (by omega) e1) (by omega), extent_eq (bounds_safe h'.points h'.len (by omega) e2) (by omega),
      middle_eq h (by omega) (by omega), middle_eq h' (by omega) (by omega)]
    by_cases ht : Rounded.extent (binary 52).toRounding b1 < θ ∧ Rounded.extent (binary 52).toRounding b2 < θ
    · rw [if_pos ht, if_pos ht]
    rw [if_neg ht, if_neg ht]
    apply PyRel.eq
    refine (split1_rel (c := c) h (by omega) (by omega) (by omega) (by omega)).bind ?_
    rintro ⟨x1, x2⟩ ⟨y1, y2⟩ ⟨a1, a2⟩
    have := a1.eq; subst this
    have := a2.eq; subst this
    refine (split1_rel (c := c) h' (by omega) (by omega) (by omega) (by omega)).bind ?_
    rintro ⟨z1, z2⟩ ⟨w1, w2⟩ ⟨d1, d2⟩
    have := d1.eq; subst this
    have := d2.eq; subst this
    refine PyRel.of_eq ?_
    simp only at a1 a2 d1 d2 ⊢
    have hmem : ∀ r ∈ [(x1, z1), (x1, z2), (x2, z2), (x2, z1)], SafePart (e + 3) k (f + 1) (l + 2) r.1 r.1 ∧ SafePart (e + 3) k (f + 1) (l + 2) r.2 r.2 := by
      simp only [List.mem_cons, List.not_mem_nil, or_false, forall_eq_or_imp, forall_eq]
      exact ⟨⟨a1, d1⟩, ⟨a1, d2⟩, ⟨a2, d2⟩, a2, d1⟩
    rw [filterM_congr (f := fun (pair : Part × Part) => Rounded.overlaps (double c) pair.1 pair.2)
      (g := fun (pair : Part × Part) => Rounded.overlaps (binary 52).toRounding pair.1 pair.2) _ fun r hr =>
        overlaps_eq (hmem r hr).1 (hmem r hr).2 (by omega)]
    refine bind_congr fun pairs hp => ?_
    rw [mapM_congr pairs fun r hr => ih (hmem r ((filterM_mem _ _ _ hp r).mp hr).1).1 (hmem r ((filterM_mem _ _ _ hp r).mp hr).1).2
      (by omega) (by omega) (by omega)]

theorem mapM_ok_mono {α β : Type} {f g : α → Py β} (l : List α) (h : ∀ x ∈ l, ∀ y, f x = .ok y → g x = .ok y) {r : List β} (hr : l.mapM f = .ok r) :
    l.mapM g = .ok r := by
  induction l generalizing r with
  | nil => exact hr
  | cons x l ih =>
    rw [List.mapM_cons] at hr ⊢
    obtain ⟨y, h1, hr⟩ := bind_eq_ok.mp hr
    obtain ⟨ys, h2, hr⟩ := bind_eq_ok.mp hr
    rw [h x (by simp) y h1, ih (fun z hz => h z (by simp [hz])) h2]
    exact hr

/-- More nested calls being allowed changes nothing if the call returned. -/
theorem pair_mono (R : Rounding) (depth : ℕ) {p q : Part} {θ : ℝ} {r : List (Pt ℝ)} (h : Rounded.pairiteration R depth p q θ = .ok r) :
    Rounded.pairiteration R (depth + 1) p q θ = .ok r := by
  induction depth generalizing p q r with
  | zero => exact absurd h (by unfold Rounded.pairiteration; simp)
  | succ depth ih =>
    unfold Rounded.pairiteration at h ⊢
    obtain ⟨b1, e1, h⟩ := bind_eq_ok.mp h
    obtain ⟨b2, e2, h⟩ := bind_eq_ok.mp h
    rw [e1, e2, ok_bind, ok_bind]
    by_cases ht : Rounded.extent R b1 < θ ∧ Rounded.extent R b2 < θ
    · rw [if_pos ht] at h ⊢; exact h
    rw [if_neg ht] at h ⊢
    obtain ⟨⟨x1, x2⟩, e3, h⟩ := bind_eq_ok.mp h
    simp only at h
    obtain ⟨⟨z1, z2⟩, e4, h⟩ := bind_eq_ok.mp h
    simp only at h
    obtain ⟨pairs, e5, h⟩ := bind_eq_ok.mp h
    obtain ⟨rs, e6, h⟩ := bind_eq_ok.mp h
    rw [e3, ok_bind]
    simp only
    rw [e4, ok_bind]
    simp only
    rw [e5, ok_bind, mapM_ok_mono pairs (fun x _ y hy => ih hy) e6]
    exact h

theorem fine_safe {p : Part} (h : FineStart p) : SafePart 60 15 133 0 p p := by
  have hl : p.points.length ≤ 4 := by rcases h.len with h | h <;> omega
  refine ⟨?_, hl, safe_parameter h.param.1, safe_parameter h.param.2⟩
  have key : ∀ x : ℝ, (∃ m : ℤ, x = m / 2 ^ 60) → |x| ≤ 32767 → Safe 60 15 x x := by
    rintro x ⟨m, rfl⟩ hx
    refine ⟨rfl, ⟨m, ?_⟩, hx.trans (by norm_num)⟩
    rw [zpow_neg, div_eq_mul_inv]; norm_cast
  have all : ∀ l : Segment ℝ, (∀ q ∈ l, SafePt 60 15 q q) → SafeSeg 60 15 l l := by
    intro l
    induction l with
    | nil => intro _; exact .nil
    | cons q l ih => intro h; exact .cons (h q (by simp)) (ih fun r hr => h r (by simp [hr]))
  exact all _ fun q hq => ⟨key _ (h.grid q hq).1 (h.bound q hq).1, key _ (h.grid q hq).2 (h.bound q hq).2⟩

end DoubleIntersect

open DoubleIntersect

section
variable {c : ℝ}

/-- C124: intersecting lists of curves neither underflows nor overflows, if at most 37 calls are nested. -/
theorem C124_intersects (depth : ℕ) (hd : depth ≤ 37) (cs1 cs2 : List Part) (h1 : ∀ p ∈ cs1, FineStart p) (h2 : ∀ p ∈ cs2, FineStart p) (θ : ℝ) :
    Rounded.curveIntersects (double c) depth cs1 cs2 θ = Rounded.curveIntersects float depth cs1 cs2 θ := by
  have hmem : ∀ x ∈ (cs1.flatMap fun (l : Part) => cs2.map fun (r : Part) => (l, r)), FineStart x.1 ∧ FineStart x.2 := by
    intro x hx
    simp only [List.mem_flatMap, List.mem_map] at hx
    obtain ⟨a, ha, b, hb, rfl⟩ := hx
    exact ⟨h1 a ha, h2 b hb⟩
  unfold Rounded.curveIntersects
  rw [filterM_congr (f := fun (pair : Part × Part) => Rounded.overlaps (double c) pair.1 pair.2)
    (g := fun (pair : Part × Part) => Rounded.overlaps float pair.1 pair.2) _ fun r hr =>
      overlaps_eq (fine_safe (hmem r hr).1) (fine_safe (hmem r hr).2) (by norm_num)]
  refine bind_congr fun pairs hp => ?_
  rw [mapM_congr pairs fun r hr => pair_eq (c := c) depth (fine_safe (hmem r ((filterM_mem _ _ _ hp r).mp hr).1).1)
    (fine_safe (hmem r ((filterM_mem _ _ _ hp r).mp hr).1).2) θ (by omega) (by omega) (by omega)]

/-- C124: with the thresholds for which C99 shows that it ends, more calls are not needed: the result is the same in double precision however many
nested calls Python allows. -/
theorem C124_intersects_terminates (cs1 cs2 : List Part) (h1 : ∀ p ∈ cs1, FineStart p) (h2 : ∀ p ∈ cs2, FineStart p) (k : ℕ) (hk : k ≤ 36) (θ : ℝ)
    (hθ : 4000000 < θ * 2 ^ k) :
    ∃ l, ∀ depth, k + 1 ≤ depth → Rounded.curveIntersects (double c) depth cs1 cs2 θ = .ok l ∧ Rounded.curveIntersects float depth cs1 cs2 θ = .ok l := by
  obtain ⟨l, hl⟩ := C99_terminates_lists cs1 cs2 (fun p hp => (h1 p hp).toStart) (fun p hp => (h2 p hp).toStart) k (by omega) θ hθ
  refine ⟨l, fun depth hd => ⟨?_, hl depth hd⟩⟩
  have mono : ∀ d, Rounded.curveIntersects (double c) d cs1 cs2 θ = .ok l → Rounded.curveIntersects (double c) (d + 1) cs1 cs2 θ = .ok l := by
    intro d h
    unfold Rounded.curveIntersects at h ⊢
    obtain ⟨pairs, e1, h⟩ := bind_eq_ok.mp h
    obtain ⟨rs, e2, h⟩ := bind_eq_ok.mp h
    rw [e1, ok_bind, mapM_ok_mono pairs (fun x _ y hy => pair_mono _ d hy) e2]
    exact h
  induction depth, hd using Nat.le_induction with
  | base => rw [C124_intersects (k + 1) (by omega) cs1 cs2 h1 h2 θ]; exact hl _ le_rfl
  | succ d hd ih => exact mono d ih

/-- C124: so what C99 shows about the reported pairs holds in double precision, for thresholds from 1/10000 on, and 37 nested calls are enough. -/
theorem C124_intersects_close (cs1 cs2 : List Part) (h1 : ∀ p ∈ cs1, FineStart p) (h2 : ∀ p ∈ cs2, FineStart p) (θ : ℝ) (hθ : 1 / 10 ^ 4 ≤ θ)
    (depth : ℕ) (hd : 37 ≤ depth) :
    ∃ l, Rounded.curveIntersects (double c) depth cs1 cs2 θ = .ok l ∧
      ∀ st ∈ l, ∃ c1 ∈ cs1, ∃ c2 ∈ cs2, ∃ k i j, k ≤ 40 ∧ Report c1 c2 θ st k i j := by
  obtain ⟨l, hl⟩ := C124_intersects_terminates (c := c) cs1 cs2 h1 h2 36 le_rfl θ (by
    have : (1:ℝ) / 10 ^ 4 * 2 ^ 36 ≤ θ * 2 ^ 36 := mul_le_mul_of_nonneg_right hθ (by positivity)
    refine lt_of_lt_of_le ?_ this
    norm_num)
  obtain ⟨a, b⟩ := hl depth hd
  exact ⟨l, a, C99_close depth cs1 cs2 (fun p hp => (h1 p hp).toStart) (fun p hp => (h2 p hp).toStart) θ (le_trans (by norm_num) hθ) l b⟩

/-- A curve of such numbers: 0.1 is a multiple of `2 ^ -55`. -/
example : FineStart ⟨[(0, 0), (3602879701896397 / 2 ^ 55, 5), (7, 100)], 0, 1⟩ := by
  have i : ∀ n : ℤ, ∃ m : ℤ, (n : ℝ) = m / 2 ^ 60 := fun n => ⟨n * 2 ^ 60, by rw [Int.cast_mul, Int.cast_pow, Int.cast_ofNat, mul_div_cancel_right₀ _ (by positivity)]⟩
  have i0 := i 0
  have i5 := i 5
  have i7 := i 7
  have i100 := i 100
  push_cast at i0 i5 i7 i100
  refine ⟨⟨by simp, ?_, by norm_num, by norm_num⟩, ?_, ⟨float.rnd_zero, .inl rfl⟩, ?_, .inr (by norm_num)⟩
  · simp only [List.mem_cons, List.not_mem_nil, or_false, forall_eq_or_imp, forall_eq]
    norm_num [abs_of_pos]
  · simp only [List.mem_cons, List.not_mem_nil, or_false, forall_eq_or_imp, forall_eq]
    exact ⟨⟨i0, i0⟩, ⟨⟨3602879701896397 * 2 ^ 5, by norm_num⟩, i5⟩, i7, i100⟩
  · have := roundBits_power 0
    rw [zpow_zero] at this
    exact this

end
end PathLib
