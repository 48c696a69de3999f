import Verif.Props.SegmentPen
import Verif.Props.BContourPath
import Verif.Props.ContourPlotter

set_option linter.unusedSectionVars false
set_option linter.unusedSimpArgs false

/-!
# From the pen calls of a glyph to its path data: C76
-/

namespace PathLib
open Spec Spec.Svg SegmentPen

/-- The calls of an ordinary glyph: `curveTo` gets one to three points and `qCurveTo` at least one. -/
def Spec.Ordinary {K : Type} : PenCall K → Prop
  | .curveTo points => 1 ≤ points.length ∧ points.length ≤ 3
  | .qCurveTo points => 1 ≤ points.length
  | _ => True

section generic
variable {K : Type} [Field K] [DecidableEq K] [CharZero K]

private def Sized (c : Contour K) : Prop := ∀ s ∈ c, 2 ≤ s.length ∧ s.length ≤ 4

private def PenSized (s : SegmentPen K) : Prop := (∀ c ∈ s.contours, Sized c) ∧ ∀ c, s.contour = some c → Sized c

private theorem sized_append {c d : Contour K} (hc : Sized c) (hd : Sized d) : Sized (c ++ d) := by
  intro s hs
  rcases List.mem_append.mp hs with h | h
  · exact hc s h
  · exact hd s h

private theorem sized_map (f : Pt K → Pt K) {c : Contour K} (h : Sized c) : Sized (c.map (List.map f)) := by
  intro s hs
  obtain ⟨s', h1, rfl⟩ := List.mem_map.mp hs
  simpa using h s' h1

private theorem sized_spline (start stop : Pt K) (offs : List (Pt K)) : Sized (spline start offs stop) := by
  induction offs generalizing start with
  | nil => simp [spline, Sized]
  | cons o rest ih =>
    cases rest with
    | nil => simp [spline, Sized]
    | cons o' rest =>
      rw [spline]
      intro s hs
      rcases List.mem_cons.mp hs with rfl | hs
      · simp
      · exact ih _ s hs

private theorem call_sized (d : String → Py (List (Contour K)))
    (hd : ∀ name cs, d name = .ok cs → ∀ c ∈ cs, Sized c) (s : SegmentPen K) (hs : PenSized s) (c : PenCall K)
    (hc : Ordinary c) : PenSized (call d s c).1 := by
  obtain ⟨h1, h2⟩ := hs
  cases c with
  | moveTo p => exact ⟨h1, by rintro c ⟨rfl⟩; simp [Sized]⟩
  | lineTo p =>
    simp only [call, lineTo, append]
    split_ifs
    · cases hc : s.contour with
      | none => exact ⟨h1, by simp [hc]⟩
      | some c =>
        refine ⟨h1, ?_⟩
        rintro _ ⟨rfl⟩
        exact sized_append (h2 c hc) (by simp [Sized])
    · exact ⟨h1, h2⟩
  | curveTo ps =>
    simp only [call, curveTo, append]
    cases hcc : s.contour with
    | none => exact ⟨h1, by simp [hcc]⟩
    | some c =>
      have hne : ps ≠ [] := by rintro rfl; simpa using hc.1
      simp only
      rw [pyGet_neg_one _ hne]
      refine ⟨h1, ?_⟩
      rintro _ ⟨rfl⟩
      refine sized_append (h2 c hcc) ?_
      intro s hs
      rw [List.mem_singleton] at hs
      subst hs
      have := hc.1
      have := hc.2
      simp only [List.length_cons]
      omega
  | qCurveTo ps =>
    have hne : ps ≠ [] := by rintro rfl; simp [Ordinary] at hc
    obtain ⟨offs, stop, rfl⟩ : ∃ offs stop, ps = offs ++ [stop] := ⟨ps.dropLast, ps.getLast hne, (List.dropLast_append_getLast hne).symm⟩
    simp only [call]
    cases hcc : s.contour with
    | none => rw [C58_no_contour s hcc]; exact ⟨h1, h2⟩
    | some c =>
      rw [C58_qCurveTo s c hcc]
      refine ⟨h1, ?_⟩
      rintro _ ⟨rfl⟩
      exact sized_append (h2 c hcc) (sized_spline _ _ _)
  | closePath =>
    simp only [call]
    unfold closePath
    split
    · exact ⟨h1, h2⟩
    · exact ⟨h1, h2⟩
    · rename_i c _ hcc
      split
      · rename_i e hcl
        refine ⟨?_, h2⟩
        intro c' hc'
        rcases List.mem_append.mp hc' with h | h
        · exact h1 _ h
        · rw [List.mem_singleton.mp h]; exact h2 c hcc
      · rename_i c' hcl
        refine ⟨?_, by rintro _ ⟨rfl⟩; simp [Sized]⟩
        intro c'' hc'
        rcases List.mem_append.mp hc' with h | h
        · exact h1 _ h
        · rw [List.mem_singleton.mp h]
          unfold closing at hcl
          obtain ⟨_, _, hcl⟩ := bind_eq_ok.mp hcl
          obtain ⟨_, _, hcl⟩ := bind_eq_ok.mp hcl
          obtain ⟨_, _, hcl⟩ := bind_eq_ok.mp hcl
          obtain ⟨_, _, hcl⟩ := bind_eq_ok.mp hcl
          split_ifs at hcl
          · cases hcl
            exact sized_append (h2 c hcc) (by simp [Sized])
          · cases hcl
            exact h2 c hcc
  | addComponent name t =>
    obtain ⟨a, b⟩ := C59_addComponent d s name t
    cases h : d name with
    | error e => rw [b e h]; exact ⟨h1, h2⟩
    | ok cs =>
      rw [a cs h]
      refine ⟨?_, h2⟩
      intro c hc
      rcases List.mem_append.mp hc with h' | h'
      · exact h1 _ h'
      · obtain ⟨c', h3, rfl⟩ := List.mem_map.mp h'
        exact sized_map _ (hd name cs h c' h3)
  | addPoint => exact ⟨h1, h2⟩
  | beginPath => exact ⟨h1, h2⟩
  | endPath => exact ⟨h1, h2⟩

/-- C76: the contours of a glyph whose glyph set makes ordinary calls consist of lines, quadratics and cubics. -/
theorem C76_orders (gs : GlyphSet K) (hgs : ∀ name calls, gs name = some calls → ∀ c ∈ calls, Ordinary c) (depth : Nat)
    (name : String) (cs : List (Contour K)) (h : drawGlyph depth gs name = .ok cs) :
    ∀ c ∈ cs, ∀ s ∈ c, 2 ≤ s.length ∧ s.length ≤ 4 := by
  induction depth generalizing name cs with
  | zero => simp [drawGlyph] at h
  | succ depth ih =>
    rw [drawGlyph] at h
    cases hg : gs name with
    | none => rw [hg] at h; simp at h
    | some calls =>
      rw [hg] at h
      have key : ∀ (calls : List (PenCall K)) (s : SegmentPen K), (∀ c ∈ calls, Ordinary c) → PenSized s →
          PenSized (SegmentPen.run (drawGlyph depth gs) s calls).1 := by
        intro calls
        induction calls with
        | nil => intro s _ hs; exact hs
        | cons c cs ih2 =>
          intro s ho hs
          have := call_sized (drawGlyph depth gs) (fun n cs h => ih n cs h) s hs c (ho c (by simp))
          rw [SegmentPen.run]
          cases h : call (drawGlyph depth gs) s c with
          | mk s' r =>
            rw [h] at this
            cases r with
            | error e => exact this
            | ok u => exact ih2 s' (fun c hc => ho c (by simp [hc])) this
      have := key calls init (hgs name calls hg) ⟨by simp [init], by simp [init]⟩
      cases hr : SegmentPen.run (drawGlyph depth gs) init calls with
      | mk s' r =>
        rw [hr] at this
        simp only [hr] at h
        cases r with
        | error e => simp at h
        | ok u => cases h; exact this.1

end generic

/-- `bc` is the contour object of `c`: it starts and ends at the same point, its path data read as SVG draws exactly the curves
of `c` except lines of length zero, and the plotter draws the same. -/
def Spec.Shows (C : Type) (bc : BContour) (c : Contour ℝ) : Prop :=
  bc.start = bc.stop ∧
  ∀ (str : ℝ → List Char) (read : List Char → Option ℝ), (∀ s ∈ c, ∀ p ∈ s, PrintablePt str read p) →
    interpret read (bc.d str) = some (.move bc.start :: (c.filter fun s => !isDot s).map .draw) ∧
    ∀ (color : Option C) (s : ContourPlotter ℝ C), s.poly = false →
      ∃ s' d, ContourPlotter.drawPaths str [bc.plotPath] color false s = (.ok (), s') ∧
        s'.content = s.content ++ [.path d { s.stroke with color := color.getD s.stroke.color }] ∧
        interpret read d = interpret read (bc.d str)

/-- C76: when a glyph can be drawn by a pen, the outline built from its contours exists, has one contour object per contour, in
order, which shows the contour, and its bounds enclose all its curves. -/
theorem C76_outline (C : Type) (gs : GlyphSet ℝ) (hgs : ∀ name calls, gs name = some calls → ∀ c ∈ calls, Ordinary c)
    (depth : Nat) (name : String) (cs : List (Contour ℝ)) (h : drawGlyph depth gs name = .ok cs) :
    ∃ o, BOutline.new cs = .ok o ∧ List.Forall₂ (Shows C) o.bContours cs ∧
      ∀ c ∈ cs, ∀ s ∈ c, ∀ t, 0 ≤ t → t ≤ 1 → ∃ p, Bezier.get s t = .ok p ∧ o.bounds.enclosesPoint p = true := by
  have hsize := C76_orders gs hgs depth name cs h
  have hcc := C57_drawGlyph depth gs name cs h
  have hne : ∀ c ∈ cs, c ≠ [] := by
    rintro c hc rfl
    obtain ⟨s0, sn, p, h1, _⟩ := (hcc _ hc).2
    simp at h1
  have hok : ∀ c ∈ cs, c ≠ [] ∧ ∀ s ∈ c, 2 ≤ s.length := fun c hc => ⟨hne c hc, fun s hs => (hsize c hc s hs).1⟩
  obtain ⟨o, ho, hf⟩ := C52_outline cs hok
  refine ⟨o, ho, ?_, ?_⟩
  · refine (List.forall₂_iff_get.mpr ⟨hf.length_eq, ?_⟩)
    intro i h1 h2
    have hnew := hf.get h1 h2
    set bc := o.bContours.get ⟨i, h1⟩
    set c := cs.get ⟨i, h2⟩ with hcdef
    have hc : c ∈ cs := List.get_mem cs ⟨i, h2⟩
    obtain ⟨hcon, s0, sn, p, e1, e2, e3, e4⟩ := hcc c hc
    obtain ⟨hpts, _, _, _, hends⟩ := C52_history c bc hnew []
    simp only [List.foldl_nil] at hpts hends
    obtain ⟨k1, k2⟩ := hends s0 sn e1 e2
    refine ⟨?_, ?_⟩
    · rw [e3] at k1; rw [e4] at k2
      exact (Option.some.inj k1).symm.trans (Option.some.inj k2)
    · intro str read hpr
      have hd := C56_roundtrip c bc hnew hcon (fun s hs => (hsize c hc s hs).2) str read hpr
      refine ⟨hd, ?_⟩
      intro color s hpoly
      have hsegs : bc.plotPath.segments = c := hpts
      have hstart : PrintablePt str read bc.start := hpr s0 (List.mem_of_head? e1) _ (List.mem_of_head? k1)
      obtain ⟨s', items, d1, d2, d3, _⟩ := C61_drawPaths str read [bc.plotPath] (by
        intro q hq
        rw [List.mem_singleton] at hq
        subst hq
        refine ⟨by rw [hsegs]; exact hsize c hc, by rw [hsegs]; exact hcon, ?_, by rw [hsegs]; exact hpr, hstart⟩
        rw [hsegs, e1]
        rintro _ ⟨rfl⟩
        exact k1) color s (.inl hpoly)
      cases d3 with
      | cons hx hy =>
        cases hy
        obtain ⟨d, rfl, hdd⟩ := hx
        refine ⟨s', d, d1, d2, ?_⟩
        rw [hdd, hd, hsegs]
        rfl
  · intro c hc s hs t h0 h1
    obtain ⟨p, hp⟩ : ∃ p, Bezier.get s t = .ok p := by
      have := (hsize c hc s hs).1
      exact ⟨_, Bezier.get_ok s (by rintro rfl; simp at this) t⟩
    exact ⟨p, hp, C53_outline cs o ho c hc hok s hs (hsize c hc s hs).2 t h0 h1 p hp⟩

/-- C76 on a glyph set with a component: the hypotheses can be met. -/
example :
    let gs : GlyphSet ℚ := fun n =>
      if n = "o" then some [.moveTo (0, 0), .qCurveTo [(0, 2), (2, 2), (2, 0)], .closePath]
      else if n = "x" then some [.addComponent "o" ⟨2, 0, 0, 2, 1, 0⟩, .moveTo (0, 0), .lineTo (1, 0), .curveTo [(1, 1), (0, 1), (0, 0)],
        .closePath] else none
    (∀ name calls, gs name = some calls → ∀ c ∈ calls, Ordinary c) ∧
    drawGlyph 5 gs "x" = .ok [[[(1, 0), (1, 4), (3, 4)], [(3, 4), (5, 4), (5, 0)], [(5, 0), (1, 0)]],
      [[(0, 0), (1, 0)], [(1, 0), (1, 1), (0, 1), (0, 0)]]] := by
  refine ⟨?_, by decide +kernel⟩
  intro name calls h c hc
  dsimp only at h
  split_ifs at h
  · cases h
    fin_cases hc <;> simp [Ordinary]
  · cases h
    fin_cases hc <;> simp [Ordinary]

end PathLib
