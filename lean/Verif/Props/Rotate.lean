import Verif.Props.Transform
import Verif.Props.PathUtilities
import Verif.Lemmas.Bezier

set_option linter.unusedSectionVars false
set_option linter.unusedSimpArgs false

/-!
# Rotating points, segments and contours; small helpers: C74, C75
-/

namespace PathLib
open Spec Transform PathUtilities

/-- `r` is `p` turned about `c` by `θ`, up to an error of 5e-16 times the distance. -/
def Spec.TurnedAbout (c : Pt ℝ) (θ : ℝ) (p r : Pt ℝ) : Prop :=
  |r.1 - (c.1 + (Real.cos θ * (p.1 - c.1) - Real.sin θ * (p.2 - c.2)))| ≤ 5e-16 * (|p.1 - c.1| + |p.2 - c.2|) ∧
  |r.2 - (c.2 + (Real.sin θ * (p.1 - c.1) + Real.cos θ * (p.2 - c.2)))| ≤ 5e-16 * (|p.1 - c.1| + |p.2 - c.2|)

private noncomputable def turn (c : Pt ℝ) (deg : ℝ) (ccw : Bool) : Pt ℝ → Pt ℝ :=
  affineMap (Transform.cos deg) ((if ccw then 1 else -1) * Transform.sin deg)
    (-((if ccw then 1 else -1) * Transform.sin deg)) (Transform.cos deg)
    (c.1 - Transform.cos deg * c.1 + (if ccw then 1 else -1) * Transform.sin deg * c.2)
    (c.2 - (if ccw then 1 else -1) * Transform.sin deg * c.1 - Transform.cos deg * c.2)

private theorem rotationAbout_eq (c : Pt ℝ) (deg : ℝ) (ccw : Bool) : Transform.rotationAbout c deg ccw =
    .ok ⟨affineMat (Transform.cos deg) ((if ccw then 1 else -1) * Transform.sin deg)
    (-((if ccw then 1 else -1) * Transform.sin deg)) (Transform.cos deg)
    (c.1 - Transform.cos deg * c.1 + (if ccw then 1 else -1) * Transform.sin deg * c.2)
    (c.2 - (if ccw then 1 else -1) * Transform.sin deg * c.1 - Transform.cos deg * c.2)⟩ := by
  have h : ∀ a b : Mat ℝ, a = b → (Except.ok ⟨a⟩ : Py (Transform ℝ)) = .ok ⟨b⟩ := by rintro a _ rfl; rfl
  cases ccw
  · apply h
    simp [translateMatrix, rotationMatrix, rotationMatrixOf, matrix, affineMat]
    constructor <;> ring
  · apply h
    simp [translateMatrix, rotationMatrix, rotationMatrixOf, matrix, affineMat]
    constructor <;> ring

/-- C74: the four functions apply one and the same map to every point and keep the nesting. The map is the rotation about
`about` by `deg` degrees, counter-clockwise when `ccw`, up to the rounding of sine and cosine. It leaves `about` where it
is, multiplies all squared distances by one factor within 2e-15 of 1 and maps the curve of a segment to the curve of the
rotated segment. -/
theorem C74_rotate (about : Pt ℝ) (deg : ℝ) (ccw : Bool) : ∃ (ρ : Pt ℝ → Pt ℝ) (f : ℝ),
    (∀ p, TurnedAbout about ((if ccw then 1 else -1) * (deg * Real.pi / 180)) p (ρ p)) ∧
    ρ about = about ∧ |f - 1| ≤ 2e-15 ∧ (∀ p q, sqDist (ρ p) (ρ q) = f * sqDist p q) ∧
    (∀ p, rotatePointAbout p about deg ccw = .ok (ρ p)) ∧
    (∀ s, rotateSegmentAbout s about deg ccw = .ok (s.map ρ)) ∧
    (∀ c, rotateContourAbout c about deg ccw = .ok (c.map (List.map ρ))) ∧
    (∀ cs, rotateContoursAbout cs about deg ccw = .ok (cs.map (List.map (List.map ρ)))) ∧
    (∀ s t, s ≠ [] → curve (s.map ρ) t = ρ (curve s t)) := by
  have hp : ∀ p, rotatePointAbout p about deg ccw = .ok (turn about deg ccw p) := by
    intro p
    unfold rotatePointAbout
    rw [rotationAbout_eq, ok_bind]
    exact applyToPoint_affine ..
  have hr : ∀ p, ∃ T, Transform.rotationAbout about deg ccw = .ok T ∧ T.applyToPoint p = .ok (turn about deg ccw p) :=
    fun p => ⟨_, rotationAbout_eq about deg ccw, applyToPoint_affine ..⟩
  have same : ∀ p T r, Transform.rotationAbout about deg ccw = .ok T → T.applyToPoint p = .ok r →
      r = turn about deg ccw p := by
    intro p T r h1 h2
    obtain ⟨T', h3, h4⟩ := hr p
    rw [h1] at h3; cases h3
    rw [h2] at h4; cases h4; rfl
  obtain ⟨f, hf, iso⟩ := C03_rotation_near_isometry deg
  refine ⟨turn about deg ccw, f, ?_, ?_, hf, ?_, hp, ?_, ?_, ?_, ?_⟩
  · intro p
    obtain ⟨T, r, h1, h2, h3⟩ := C03_rotation_accuracy about deg ccw p
    rw [same p T r h1 h2] at h3
    exact h3
  · obtain ⟨T, h1, h2⟩ := C03_rotation_fixes_centre about deg ccw
    exact (same about T about h1 h2).symm
  · intro p q
    obtain ⟨T, p', q', h1, h2, h3, h4⟩ := iso about ccw p q
    rwa [same p T p' h1 h2, same q T q' h1 h3] at h4
  · intro s
    unfold rotateSegmentAbout
    rw [rotationAbout_eq, ok_bind]
    exact (C06_affine ..).1 s
  · intro s
    unfold rotateContourAbout
    rw [rotationAbout_eq, ok_bind]
    exact (C06_affine ..).2.1 s
  · intro s
    unfold rotateContoursAbout
    rw [rotationAbout_eq, ok_bind]
    exact (C06_affine ..).2.2 s
  · intro s t hs
    exact curve_affine _ _ _ _ _ _ s hs t

/-- C74: the default rotation takes the upper right corner of a square to the upper left. -/
example : rotateContoursAbout [[[(1, 1), (2, 3)]]] (0, 0) 90 true = .ok [[[(-1, 1), (-3, 2)]]] := by
  have h : ∀ p : Pt ℝ, rotatePointAbout p (0, 0) 90 true = .ok (-p.2, p.1) := by
    intro p
    obtain ⟨T, h1, h2⟩ := C03_default_rotation (0, 0) p
    unfold rotatePointAbout
    rw [h1, ok_bind, h2]
    simp
  obtain ⟨ρ, f, -, -, -, -, h1, -, -, h2, -⟩ := C74_rotate (0, 0) 90 true
  have e : ∀ p, ρ p = (-p.2, p.1) := by
    intro p
    have := (h1 p).symm.trans (h p)
    simpa using this
  rw [h2]
  simp [e]

/-! ## C75 -/

section field
variable {K : Type} [Field K] [LinearOrder K] [IsStrictOrderedRing K]

/-- C75: `minMax` returns its two arguments, the smaller one first. -/
theorem C75_minMax (a b : K) : (minMax a b).1 ≤ (minMax a b).2 ∧ (minMax a b = (a, b) ∨ minMax a b = (b, a)) ∧
    minMax a b = minMax b a := by
  unfold minMax
  rcases lt_trichotomy a b with h | h | h
  · simp [h.le, not_le.mpr h]
  · simp [h]
  · simp [h.le, not_le.mpr h]

example : minMax (3 : ℚ) (-2) = (-2, 3) := by decide +kernel

/-- C75: `toMicros` is defined exactly for a non-zero em size; it then takes the em to 1000 units, is linear, and keeps the
order for a positive em size. -/
theorem C75_toMicros (em : Int) :
    (em = 0 → ∀ x : K, toMicros x em = .error .zeroDivisionError) ∧
    (em ≠ 0 → ∃ f : K → K, (∀ x, toMicros x em = .ok (f x)) ∧ f em = 1000 ∧ (∀ x y, f (x + y) = f x + f y) ∧
      (∀ c x, f (c * x) = c * f x) ∧ (0 < em → StrictMono f)) := by
  constructor
  · rintro rfl x
    simp [toMicros]
  · intro h
    have h' : (em : K) ≠ 0 := by exact_mod_cast h
    refine ⟨fun x => x * 1000 / em, fun x => pdiv_of_ne _ h', ?_, ?_, ?_, ?_⟩
    · field_simp
    · intro x y; ring
    · intro c x; ring
    · intro hp x y hxy
      have hp' : (0 : K) < em := by exact_mod_cast hp
      dsimp only
      gcongr

example : toMicros (512 : ℚ) 2048 = .ok 250 := by decide +kernel

end field

end PathLib
