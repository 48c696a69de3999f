import Verif.Spec.HeapCurve
import Verif.Lemmas.Heap
import Verif.Lemmas.Bezier

/-!
# Lemmas about curves on the heap
-/

namespace PathLib.Heap
open Spec Bezier

theorem row_same {S : Set Nat} {h h' : Heap ℝ} {r : Nat} {l : List ℝ} (hr : IsRow S h r l) (hh : h'[r]? = h[r]?) : IsRow S h' r l :=
  ⟨hr.1, by rw [hh, hr.2]⟩

theorem local_extrema {S T : Set Nat} {h h' : Heap ℝ} {r : Nat × Nat × Nat} {e : Extrema} (hST : S ⊆ T)
    (hh : ∀ i ∈ S, ∀ c, h[i]? = some c → h'[i]? = some c) (he : IsExtrema S h r e) : IsExtrema T h' r e :=
  ⟨local_row _ _ _ _ _ _ hST hh he.1, local_row _ _ _ _ _ _ hST hh he.2.1, local_row _ _ _ _ _ _ hST hh he.2.2.1, he.2.2.2⟩

theorem rel_imp {α β : Type} {R R' : α → β → Prop} {a : Option α} {b : Option β} (h : ∀ a b, R a b → R' a b) (hr : Option.Rel R a b) :
    Option.Rel R' a b := by
  cases hr with
  | none => exact .none
  | some hr => exact .some (h _ _ hr)

theorem _root_.PathLib.Spec.IsCurve.mono {S T : Set Nat} {h h' : Heap ℝ} {c : Curve} {o : CachedBezier} (hc : IsCurve S h c o) (hST : S ⊆ T)
    (hT : c.points ∉ T) (hh : ∀ i, i ∈ S ∨ i = c.points → ∀ x, h[i]? = some x → h'[i]? = some x) : IsCurve T h' c o := by
  have hS : ∀ i ∈ S, ∀ x, h[i]? = some x → h'[i]? = some x := fun i hi => hh i (.inl hi)
  exact ⟨hT, hh _ (.inr rfl) _ hc.points, hc.val, rel_imp (fun _ _ => local_contour _ _ _ _ _ _ hST hS) hc.dc,
    rel_imp (fun _ _ => local_extrema hST hS) hc.ext, hc.len, hc.box, hc.rect, local_segment _ _ _ _ _ _ hST hS hc.lut⟩

theorem _root_.PathLib.Spec.IsCurve.notNew {S : Set Nat} {h : Heap ℝ} {c : Curve} {o : CachedBezier} (hc : IsCurve S h c o) {n : Nat}
    (hn : h.length ≤ n) : c.points ∉ S ∪ newSince n := by
  rintro (hi | hi)
  · exact hc.notOwn hi
  · have := lt_of_cell hc.points
    simp only [newSince, Set.mem_ofPred_eq] at hi
    omega

theorem _root_.PathLib.Spec.IsCurve.grow {S : Set Nat} {h h' : Heap ℝ} {c : Curve} {o : CachedBezier} (hc : IsCurve S h c o) (hp : h <+: h') :
    IsCurve (S ∪ newSince h.length) h' c o :=
  hc.mono (fun _ hi => .inl hi) (hc.notNew le_rfl) (fun _ _ _ => prefix_cell hp)

theorem _root_.PathLib.Spec.Changes.refl (p : Place) : Changes p p := ⟨le_rfl, rfl, fun _ _ _ => rfl, fun _ h => .inl h⟩

theorem _root_.PathLib.Spec.Changes.trans {p q r : Place} (h1 : Changes p q) (h2 : Changes q r) : Changes p r := by
  refine ⟨h1.length.trans h2.length, h2.points.trans h1.points, fun i hi hn => ?_, fun i hi => ?_⟩
  · rw [h2.same i (lt_of_lt_of_le hi h1.length) ?_, h1.same i hi hn]
    intro he
    rcases h1.ext i he with he | he
    · exact hn he
    · omega
  · rcases h2.ext i hi with he | he
    · exact h1.ext i he
    · exact .inr (h1.length.trans he)

theorem union_new {S : Set Nat} {m n : Nat} (h : m ≤ n) : S ∪ newSince m ∪ newSince n ⊆ S ∪ newSince m := by
  rintro i ((hi | hi) | hi)
  · exact .inl hi
  · exact .inr hi
  · refine .inr ?_
    simp only [newSince, Set.mem_ofPred_eq] at hi ⊢
    omega

theorem _root_.PathLib.Spec.IsCurve.shrink {S : Set Nat} {h : Heap ℝ} {c : Curve} {o : CachedBezier} {m n : Nat} (hmn : m ≤ n)
    (hc : IsCurve (S ∪ newSince m ∪ newSince n) h c o) : IsCurve (S ∪ newSince m) h c o :=
  hc.mono (union_new hmn) (fun hi => hc.notOwn (.inl hi)) (fun _ _ _ hx => hx)

/-- One call after another. -/
theorem agrees_trans {α β γ δ : Type} {S : Set Nat} {p : Place} {R : Set Nat → Heap ℝ → α → β → Prop} {R' : Set Nat → Heap ℝ → γ → δ → Prop}
    {a : Py α} {q : Place} {b : Py β} {w : World} {out : Py γ × Place} {out' : Py δ × World} (h1 : Agrees S p R (a, q) (b, w))
    (hR : ∀ m n h c d, m ≤ n → R' (S ∪ newSince m ∪ newSince n) h c d → R' (S ∪ newSince m) h c d)
    (h2 : Agrees (S ∪ newSince p.heap.length) q R' out out') : Agrees S p R' out out' := by
  obtain ⟨k1, k2, k3, k4⟩ := h2
  refine ⟨k1.shrink h1.2.2.1.length, k2, h1.2.2.1.trans k3, ?_⟩
  cases ho : out'.1 with
  | error e => rw [ho] at k4; exact k4
  | ok d =>
    rw [ho] at k4
    obtain ⟨c, hc, hd⟩ := k4
    exact ⟨c, hc, hR _ _ _ _ _ h1.2.2.1.length hd⟩

/-- The relation of values: equality. -/
abbrev Same {α : Type} : Set Nat → Heap ℝ → α → α → Prop := fun _ _ a b => a = b

theorem agrees_error {α β γ δ : Type} {S : Set Nat} {p : Place} {R : Set Nat → Heap ℝ → α → β → Prop} {R' : Set Nat → Heap ℝ → γ → δ → Prop}
    {a : Py α} {q : Place} {e : PyErr} {w : World} (h1 : Agrees S p R (a, q) (.error e, w)) :
    a = .error e ∧ Agrees S p R' ((.error e : Py γ), q) ((.error e : Py δ), w) :=
  ⟨h1.2.2.2, h1.1, h1.2.1, h1.2.2.1, rfl⟩

theorem agrees_ok {α β : Type} {S : Set Nat} {p : Place} {R : Set Nat → Heap ℝ → α → β → Prop}
    {a : Py α} {q : Place} {b : β} {w : World} (h1 : Agrees S p R (a, q) (.ok b, w)) :
    ∃ x, a = .ok x ∧ R (S ∪ newSince p.heap.length) q.heap x b ∧ IsCurve (S ∪ newSince p.heap.length) q.heap q.curve w.obj ∧ q.prec = w.prec := by
  obtain ⟨x, hx, hr⟩ := h1.2.2.2
  exact ⟨x, hx, hr, h1.1, h1.2.1⟩

theorem onHeap_read {α : Type} {x : Prog ℝ α} {p : Place} {r : Py α} (hx : x p.heap = (r, p.heap)) : onHeap x p = (r, p) := by
  unfold onHeap
  rw [hx]

theorem loadLists_run {S : Set Nat} {h : Heap ℝ} {r : Nat} {ls : List (Segment ℝ)} (hr : IsContour S h r ls) :
    loadLists r h = (.ok ls, h) := by
  obtain ⟨_, rs, h1, h2⟩ := hr
  unfold loadLists
  rw [bind_ok _ _ _ _ _ (loadRefs_run h1)]
  clear h1
  induction h2 with
  | nil => rfl
  | cons hab _ ih =>
    rw [List.mapM_cons, bind_ok _ _ _ _ _ (loadPts_run hab.2), bind_ok _ _ _ _ _ ih, pure_run]

theorem allocLists_run (ls : List (Segment ℝ)) (h : Heap ℝ) :
    ∃ a h', allocLists ls h = (.ok a, h') ∧ h <+: h' ∧ IsContour (newSince h.length) h' a ls := by
  have hp1 : h <+: h ++ [Cell.refs []] := ⟨_, rfl⟩
  obtain ⟨r', h', e, l, k, q⟩ := loop_creates (B := IsSegment) local_segment inside_segment h (fun (l : Segment ℝ) => alloc (.pts l))
    (fun l => .ok l) ls ls (List.forall₂_same.mpr fun l _ k hk => ⟨_, _, alloc_run _ _, ⟨_, rfl⟩, k.length, rfl, by simp [newSince], by simp⟩)
    h.length le_rfl (h ++ [Cell.refs []]) hp1 [] (by simp)
  have hpre : h <+: h' := by
    apply prefix_of_get
    intro i hi
    rw [k i (by simp; omega) (by omega), prefix_get hp1 hi]
  have hm : ls.mapM (fun (l : Segment ℝ) => (.ok l : Py (Segment ℝ))) = .ok ls := by
    have := mapM_ok (fun (l : Segment ℝ) => (.ok l : Py (Segment ℝ))) id ls (fun _ _ => rfl)
    simpa using this
  rw [hm] at q
  obtain ⟨rfl, rs, h3, h4⟩ := q
  refine ⟨h.length, h', ?_, hpre, by simp [newSince], rs, by simpa using h3, h4.imp fun _ _ hb => ?_⟩
  · unfold allocLists
    rw [bind_ok _ _ _ _ _ (alloc_run _ _), bind_ok _ _ _ _ _ e, pure_run]
  · refine local_segment _ _ _ _ _ _ ?_ (fun _ _ _ hc => hc) hb
    intro i hi
    simp only [newSince, Set.mem_ofPred_eq, List.length_append, List.length_cons, List.length_nil] at hi ⊢
    omega

namespace Curve
variable {S : Set Nat} {p : Place} {w : World}

theorem dcPoints_agrees (hc : IsCurve S p.heap p.curve w.obj) (hp : p.prec = w.prec) :
    Agrees S p IsContour (dcPoints p) (World.dcPoints w) := by
  obtain ⟨a, h', e, hpre, ha⟩ := allocLists_run (Bezier.dcPoints w.obj.pts) p.heap
  have run : onHeap (do allocLists (Bezier.dcPoints (← loadPts p.curve.points))) p = (.ok a, { p with heap := h' }) := by
    unfold onHeap
    rw [bind_ok _ _ _ _ _ (loadPts_run hc.points)]
    have : w.obj.val.controlPoints = w.obj.pts := rfl
    rw [this, e]
  have ha' : IsContour (S ∪ newSince p.heap.length) h' a (Bezier.dcPoints w.obj.pts) :=
    local_contour _ _ _ _ _ _ (fun _ hi => .inr hi) (fun _ _ _ hx => hx) ha
  have hc' := hc.grow hpre
  have key : Agrees S p IsContour (.ok a, { p with heap := h', curve := { p.curve with dc := some a } })
      (.ok (Bezier.dcPoints w.obj.pts), { w with obj := { w.obj with dc := some (Bezier.dcPoints w.obj.pts) } }) := by
    refine ⟨⟨hc'.notOwn, hc'.points, hc'.val, .some ha', hc'.ext, hc'.len, hc'.box, hc'.rect, hc'.lut⟩, hp,
      ⟨hpre.length_le, rfl, fun i hi _ => prefix_get hpre hi, fun _ hi => .inl hi⟩, a, rfl, ha'⟩
  unfold dcPoints World.dcPoints
  simp only [run]
  have hdc := hc.dc
  cases hp1 : p.curve.dc <;> cases hw1 : w.obj.dc <;> rw [hp1, hw1] at hdc
  · exact key
  · cases hdc
  · cases hdc
  · rename_i d l
    cases hdc with
    | some hdc =>
      obtain ⟨_, rs, h1, h2⟩ := id hdc
      simp only [onHeap_read (loadRefs_run h1)]
      cases h2 with
      | nil => exact key
      | cons _ _ =>
        refine ⟨hc.grow List.prefix_rfl, hp, .refl _, d, rfl, ?_⟩
        exact local_contour _ _ _ _ _ _ (fun _ hi => .inl hi) (fun _ _ _ hx => hx) hdc

theorem same_shrink {α : Type} (m n : Nat) (h : Heap ℝ) (c d : α) (_ : m ≤ n) (hr : Same (S ∪ newSince m ∪ newSince n) h c d) :
    Same (S ∪ newSince m) h c d := hr

/-- A call that only reads. -/
theorem read_agrees {α β : Type} {R : Set Nat → Heap ℝ → α → β → Prop} (hc : IsCurve S p.heap p.curve w.obj) (hp : p.prec = w.prec) (r : Py α) (r' : Py β)
    (hr : match r' with
      | .ok b => ∃ a, r = .ok a ∧ R (S ∪ newSince p.heap.length) p.heap a b
      | .error e => r = .error e) : Agrees S p R (r, p) (r', w) :=
  ⟨hc.grow List.prefix_rfl, hp, .refl _, hr⟩

theorem read_same {α : Type} (hc : IsCurve S p.heap p.curve w.obj) (hp : p.prec = w.prec) (r : Py α) : Agrees S p Same (r, p) (r, w) := by
  refine read_agrees hc hp r r ?_
  cases r with
  | error e => rfl
  | ok a => exact ⟨a, rfl, rfl⟩

theorem derivative_agrees (hc : IsCurve S p.heap p.curve w.obj) (hp : p.prec = w.prec) (t : ℝ) :
    Agrees S p Same (derivative t p) (World.derivative t w) := by
  have h1 := dcPoints_agrees hc hp
  unfold derivative World.derivative
  generalize dcPoints p = x at h1
  generalize World.dcPoints w = y at h1
  obtain ⟨a, q⟩ := x
  obtain ⟨b, w'⟩ := y
  cases b with
  | error e => obtain ⟨rfl, h⟩ := agrees_error (R' := Same (α := Pt ℝ)) h1; exact h
  | ok dc =>
    obtain ⟨d, rfl, hd, hc', hp'⟩ := agrees_ok h1
    refine agrees_trans h1 same_shrink ?_
    simp only
    rw [onHeap_read (r := do derivativeOf (order w'.obj.pts) (← pyGet dc 0) t)]
    · exact read_same hc' hp' _
    · rw [bind_ok _ _ _ _ _ (loadPts_run hc'.points), bind_ok _ _ _ _ _ (loadLists_run hd)]
      rfl

theorem normal_agrees (hc : IsCurve S p.heap p.curve w.obj) (hp : p.prec = w.prec) (t : ℝ) :
    Agrees S p Same (normal t p) (World.normal t w) := by
  have h1 := derivative_agrees hc hp t
  unfold normal World.normal
  generalize derivative t p = x at h1
  generalize World.derivative t w = y at h1
  obtain ⟨a, q⟩ := x
  obtain ⟨b, w'⟩ := y
  cases b with
  | error e => obtain ⟨rfl, h⟩ := agrees_error (R' := Same (α := Pt ℝ)) h1; exact h
  | ok d =>
    obtain ⟨d, rfl, rfl, hc', hp'⟩ := agrees_ok h1
    exact agrees_trans h1 same_shrink (read_same hc' hp' _)

theorem extrema_shrink (m n : Nat) (h : Heap ℝ) (c : Nat × Nat × Nat) (d : Extrema) (hmn : m ≤ n) (hr : IsExtrema (S ∪ newSince m ∪ newSince n) h c d) :
    IsExtrema (S ∪ newSince m) h c d := local_extrema (union_new hmn) (fun _ _ _ hx => hx) hr

theorem extrema_agrees (hc : IsCurve S p.heap p.curve w.obj) (hp : p.prec = w.prec) :
    Agrees S p IsExtrema (extrema p) (World.extrema w) ∧
      ∀ e, (extrema p).1 = .ok e → (extrema p).2.curve.ext = some e := by
  unfold extrema World.extrema
  have hext := hc.ext
  cases hp1 : p.curve.ext <;> cases hw1 : w.obj.ext <;> rw [hp1, hw1] at hext
  · have h1 := dcPoints_agrees hc hp
    simp only
    generalize dcPoints p = x at h1
    generalize World.dcPoints w = y at h1
    obtain ⟨a, q⟩ := x
    obtain ⟨b, w'⟩ := y
    cases b with
    | error e => obtain ⟨rfl, h⟩ := agrees_error (R' := IsExtrema) h1; exact ⟨h, fun _ h => by cases h⟩
    | ok dc =>
      obtain ⟨d, rfl, hd, hc', hp'⟩ := agrees_ok h1
      simp only
      have hread : ∀ {α : Type} (f : Extrema → Prog ℝ α), (do
          let ps ← loadPts q.curve.points
          let ex ← ofPy (extremaOf (order ps) (← loadLists d))
          f ex : Prog ℝ α) q.heap = ((do ofPy (extremaOf (order w'.obj.pts) dc) >>= f : Prog ℝ α)) q.heap := by
        intro α f
        rw [bind_ok _ _ _ _ _ (loadPts_run hc'.points), bind_ok _ _ _ _ _ (loadLists_run hd)]
        rfl
      cases hx : extremaOf (order w'.obj.pts) dc with
      | error e =>
        have : onHeap (do
            let ps ← loadPts q.curve.points
            let ex ← ofPy (extremaOf (order ps) (← loadLists d))
            return (← alloc (.nums ex.x), ← alloc (.nums ex.y), ← alloc (.nums ex.all))) q = (.error e, q) := by
          apply onHeap_read
          rw [hread, bind_error _ _ _ _ _ (by rw [ofPy_run, hx])]
        rw [this]
        exact ⟨agrees_trans h1 extrema_shrink (read_agrees hc' hp' _ _ rfl), fun _ h => by cases h⟩
      | ok ex =>
        set n := q.heap.length with hn
        have : onHeap (do
            let ps ← loadPts q.curve.points
            let ex ← ofPy (extremaOf (order ps) (← loadLists d))
            return (← alloc (.nums ex.x), ← alloc (.nums ex.y), ← alloc (.nums ex.all))) q =
            (.ok (n, n + 1, n + 2), { q with heap := q.heap ++ [.nums ex.x, .nums ex.y, .nums ex.all] }) := by
          unfold onHeap
          rw [hread, bind_ok _ _ _ _ _ (by rw [ofPy_run, hx])]
          rw [bind_ok _ _ _ _ _ (alloc_run _ _), bind_ok _ _ _ _ _ (alloc_run _ _), bind_ok _ _ _ _ _ (alloc_run _ _), pure_run]
          simp [hn]
        rw [this]
        refine ⟨agrees_trans h1 extrema_shrink ?_, fun _ h => by cases h; rfl⟩
        have hpre : q.heap <+: q.heap ++ [.nums ex.x, .nums ex.y, .nums ex.all] := ⟨_, rfl⟩
        have hc'' := hc'.grow hpre
        have he : IsExtrema (S ∪ newSince p.heap.length ∪ newSince n) (q.heap ++ [.nums ex.x, .nums ex.y, .nums ex.all]) (n, n + 1, n + 2) ex := by
          refine ⟨⟨.inr (by simp [newSince]), by simp [hn]⟩, ⟨.inr (by simp [newSince]), by simp [hn]⟩, ⟨.inr (by simp [newSince]), by simp [hn]⟩, ?_, ?_, ?_⟩ <;>
            simp
        refine ⟨⟨hc''.notOwn, hc''.points, hc''.val, hc''.dc, .some he, hc''.len, hc''.box, hc''.rect, hc''.lut⟩, hp',
          ⟨hpre.length_le, rfl, fun i hi _ => prefix_get hpre hi, ?_⟩, _, rfl, he⟩
        rintro i ⟨r, hr, hi⟩
        cases hr
        right
        simp only at hi
        omega
  · cases hext
  · cases hext
  · cases hext with
    | some hext =>
      exact ⟨read_agrees hc hp _ _ ⟨_, rfl, local_extrema (fun _ hi => .inl hi) (fun _ _ _ hx => hx) hext⟩, fun _ h => by cases h; exact hp1⟩

/-! ### Completing a list of extrema -/

theorem keep_pts {h : Heap ℝ} {a i : Nat} {l0 l : List ℝ} {x : Segment ℝ} (ha : h[a]? = some (.nums l0)) (hi : h[i]? = some (.pts x)) :
    (h.set a (.nums l))[i]? = some (.pts x) := by
  rw [List.getElem?_set_ne, hi]
  rintro rfl
  rw [ha] at hi
  cases hi

theorem keep_refs {h : Heap ℝ} {a i : Nat} {l0 l : List ℝ} {x : List Nat} (ha : h[a]? = some (.nums l0)) (hi : h[i]? = some (.refs x)) :
    (h.set a (.nums l))[i]? = some (.refs x) := by
  rw [List.getElem?_set_ne, hi]
  rintro rfl
  rw [ha] at hi
  cases hi

theorem _root_.PathLib.Spec.IsCurve.setNums {h : Heap ℝ} {c : Curve} {o : CachedBezier} (hc : IsCurve S h c o) {a : Nat} {l0 l : List ℝ}
    (ha : h[a]? = some (.nums l0)) (e : Option Extrema) (he : Option.Rel (IsExtrema S (h.set a (.nums l))) c.ext e) :
    IsCurve S (h.set a (.nums l)) c { o with ext := e } := by
  refine ⟨hc.notOwn, keep_pts ha hc.points, hc.val, rel_imp ?_ hc.dc, he, hc.len, hc.box, hc.rect, hc.lut.1, keep_pts ha hc.lut.2⟩
  rintro r d ⟨hr, rs, h1, h2⟩
  exact ⟨hr, rs, keep_refs ha h1, h2.imp fun _ _ hx => ⟨hx.1, keep_pts ha hx.2⟩⟩

theorem storeNums_run {h : Heap ℝ} {a : Nat} {l0 : List ℝ} (l : List ℝ) (ha : h[a]? = some (.nums l0)) :
    storeNums a l h = (.ok (), h.set a (.nums l)) := by
  unfold storeNums
  rw [ha]

/-- What `set` does at the address itself and elsewhere. -/
theorem set_self {h : Heap ℝ} {a : Nat} {l0 : List ℝ} (l : List ℝ) (ha : h[a]? = some (.nums l0)) : (h.set a (.nums l))[a]? = some (.nums l) := by
  rw [List.getElem?_set_self (lt_of_cell ha)]

/-- A call that completes one of the lists of extrema. -/
theorem complete_agrees {α : Type} (hc : IsCurve S p.heap p.curve w.obj) (hp : p.prec = w.prec) {r : Nat × Nat × Nat} {e' : Extrema}
    (h1 : p.curve.ext = some r) (a : Nat) (ha : a = r.1 ∨ a = r.2.1 ∨ a = r.2.2) {l0 l : List ℝ} (hl0 : p.heap[a]? = some (.nums l0))
    (he : IsExtrema S (p.heap.set a (.nums l)) r e') (x : Py α) :
    Agrees S p Same (x, { p with heap := p.heap.set a (.nums l) }) (x, { w with obj := { w.obj with ext := some e' } }) := by
  have hk := hc.setNums hl0 (some e') (by rw [h1]; exact .some he)
  refine ⟨hk.mono (fun _ hi => .inl hi) (hc.notNew le_rfl) (fun _ _ _ hx => hx), hp, ⟨by simp, rfl, ?_, fun _ hi => .inl hi⟩, ?_⟩
  · intro i hi hn
    rw [List.getElem?_set_ne]
    rintro rfl
    exact hn ⟨r, h1, ha⟩
  · cases x with
    | error e => rfl
    | ok v => exact ⟨v, rfl, rfl⟩

theorem set_x {h : Heap ℝ} {r : Nat × Nat × Nat} {e : Extrema} (he : IsExtrema S h r e) (l : List ℝ) :
    IsExtrema S (h.set r.1 (.nums l)) r { e with x := l } := by
  obtain ⟨h1, h2, h3, n1, n2, n3⟩ := he
  exact ⟨⟨h1.1, set_self l h1.2⟩, row_same h2 (List.getElem?_set_ne n1), row_same h3 (List.getElem?_set_ne n2), n1, n2, n3⟩

theorem set_y {h : Heap ℝ} {r : Nat × Nat × Nat} {e : Extrema} (he : IsExtrema S h r e) (l : List ℝ) :
    IsExtrema S (h.set r.2.1 (.nums l)) r { e with y := l } := by
  obtain ⟨h1, h2, h3, n1, n2, n3⟩ := he
  exact ⟨row_same h1 (List.getElem?_set_ne n1.symm), ⟨h2.1, set_self l h2.2⟩, row_same h3 (List.getElem?_set_ne n3), n1, n2, n3⟩

theorem set_all {h : Heap ℝ} {r : Nat × Nat × Nat} {e : Extrema} (he : IsExtrema S h r e) (l : List ℝ) :
    IsExtrema S (h.set r.2.2 (.nums l)) r { e with all := l } := by
  obtain ⟨h1, h2, h3, n1, n2, n3⟩ := he
  exact ⟨row_same h1 (List.getElem?_set_ne n2.symm), row_same h2 (List.getElem?_set_ne n3.symm), ⟨h3.1, set_self l h3.2⟩, n1, n2, n3⟩

theorem getminmax_run (hc : IsCurve S p.heap p.curve w.obj) (d : Fin 2) (a : Nat) (l : List ℝ) (ha : p.heap[a]? = some (.nums l)) :
    getminmax d a p = (minmaxLoop w.obj.pts d (addEnds l), { p with heap := p.heap.set a (.nums (addEnds l)) }) := by
  unfold getminmax onHeap
  rw [bind_ok _ _ _ _ _ (loadNums_run ha), bind_ok _ _ _ _ _ (storeNums_run _ ha), bind_ok _ _ _ _ _ (loadPts_run (keep_pts ha hc.points))]
  rfl

theorem bbox_agrees (hc : IsCurve S p.heap p.curve w.obj) (hp : p.prec = w.prec) : Agrees S p Same (bbox p) (World.bbox w) := by
  unfold bbox World.bbox
  rw [← hc.box]
  cases hb : p.curve.box with
  | some b => exact read_same hc hp _
  | none =>
    simp only
    obtain ⟨h1, hx⟩ := extrema_agrees hc hp
    have hw : ∀ e, (World.extrema w).1 = .ok e → (World.extrema w).2.obj.ext = some e := by
      intro e he
      unfold World.extrema at he ⊢
      revert he
      cases h : w.obj.ext with
      | some e' => simp only; intro he; cases he; exact h
      | none =>
        simp only
        generalize World.dcPoints w = y
        obtain ⟨b, w'⟩ := y
        cases b with
        | error e => intro he; cases he
        | ok dc =>
          simp only
          cases extremaOf (order w'.obj.pts) dc with
          | error e => intro he; cases he
          | ok e' => intro he; cases he; rfl
    generalize extrema p = x at h1 hx
    generalize World.extrema w = y at h1 hw
    obtain ⟨a, q⟩ := x
    obtain ⟨b, w'⟩ := y
    cases b with
    | error e => obtain ⟨rfl, h⟩ := agrees_error (R' := Same (α := (ℝ × ℝ) × (ℝ × ℝ))) h1; exact h
    | ok e =>
      obtain ⟨r, rfl, hr, hc', hp'⟩ := agrees_ok h1
      have hext : q.curve.ext = some r := hx r rfl
      refine agrees_trans h1 same_shrink ?_
      simp only [getminmax_run hc' 0 r.1 e.x hr.1.2, Bezier.getminmax]
      have k1 := complete_agrees (e' := { e with x := addEnds e.x }) hc' hp' hext r.1 (.inl rfl) hr.1.2 (set_x hr _)
        (minmaxLoop w'.obj.pts 0 (addEnds e.x))
      cases hm : minmaxLoop w'.obj.pts 0 (addEnds e.x) with
      | error er => rw [hm] at k1; exact (agrees_error k1).2
      | ok mx =>
        rw [hm] at k1
        obtain ⟨_, _, rfl, hc2, hp2⟩ := agrees_ok k1
        refine agrees_trans k1 same_shrink ?_
        have hr2 : IsExtrema _ (q.heap.set r.1 (.nums (addEnds e.x))) r { e with x := addEnds e.x } :=
          local_extrema (T := S ∪ newSince p.heap.length ∪ newSince q.heap.length) (fun _ hi => .inl hi) (fun _ _ _ hx => hx) (set_x hr (addEnds e.x))
        have run2 := getminmax_run hc2 1 r.2.1 e.y hr2.2.1.2
        simp only at run2
        simp only [run2]
        have k2 := complete_agrees (e' := { e with x := addEnds e.x, y := addEnds e.y }) hc2 hp2 hext r.2.1 (.inr (.inl rfl)) hr2.2.1.2
          (set_y hr2 _) (minmaxLoop w'.obj.pts 1 (addEnds e.y))
        have hpts : ({ w' with obj := { w'.obj with ext := some { e with x := addEnds e.x } } } : World).obj.pts = w'.obj.pts := rfl
        rw [hpts]
        cases hm2 : minmaxLoop w'.obj.pts 1 (addEnds e.y) with
        | error er => rw [hm2] at k2; exact (agrees_error k2).2
        | ok my =>
          rw [hm2] at k2
          obtain ⟨c1, c2, c3, _⟩ := k2
          exact ⟨⟨c1.notOwn, c1.points, c1.val, c1.dc, c1.ext, c1.len, rfl, c1.rect, c1.lut⟩, c2, ⟨c3.length, c3.points, c3.same, c3.ext⟩, _, rfl, rfl⟩

theorem boundsRectangle_agrees (hc : IsCurve S p.heap p.curve w.obj) (hp : p.prec = w.prec) :
    Agrees S p Same (boundsRectangle p) (World.boundsRectangle w) := by
  unfold boundsRectangle World.boundsRectangle
  rw [← hc.rect]
  cases hb : p.curve.rect with
  | some b => exact read_same hc hp _
  | none =>
    simp only
    have h1 := bbox_agrees hc hp
    generalize bbox p = x at h1
    generalize World.bbox w = y at h1
    obtain ⟨a, q⟩ := x
    obtain ⟨b, w'⟩ := y
    cases b with
    | error e => obtain ⟨rfl, h⟩ := agrees_error (R' := Same (α := BoundsRectangle ℝ)) h1; exact h
    | ok e =>
      obtain ⟨r, rfl, rfl, hc', hp'⟩ := agrees_ok h1
      obtain ⟨c1, c2, c3, _⟩ := h1
      obtain ⟨⟨minX, maxX⟩, minY, maxY⟩ := r
      exact ⟨⟨c1.notOwn, c1.points, c1.val, c1.dc, c1.ext, c1.len, c1.box, rfl, c1.lut⟩, c2, ⟨c3.length, c3.points, c3.same, c3.ext⟩, _, rfl, rfl⟩

theorem overlaps_agrees (hc : IsCurve S p.heap p.curve w.obj) (hp : p.prec = w.prec) (r2 : BoundsRectangle ℝ) :
    Agrees S p Same (overlaps r2 p) (World.overlaps r2 w) := by
  have h1 := boundsRectangle_agrees hc hp
  unfold overlaps World.overlaps
  generalize boundsRectangle p = x at h1
  generalize World.boundsRectangle w = y at h1
  obtain ⟨a, q⟩ := x
  obtain ⟨b, w'⟩ := y
  cases b with
  | error e => obtain ⟨rfl, h⟩ := agrees_error (R' := Same (α := Bool)) h1; exact h
  | ok d =>
    obtain ⟨d, rfl, rfl, hc', hp'⟩ := agrees_ok h1
    exact agrees_trans h1 same_shrink (read_same hc' hp' (.ok _))

theorem lengthLoop_agrees (is : List Nat) : ∀ {S : Set Nat} {p : Place} {w : World} (_ : IsCurve S p.heap p.curve w.obj) (_ : p.prec = w.prec) (sum : ℝ),
    Agrees S p Same (lengthLoop is sum p) (World.lengthLoop is sum w) := by
  induction is with
  | nil => intro S p w hc hp sum; exact read_same hc hp (.ok _)
  | cons i is ih =>
    intro S p w hc hp sum
    rw [lengthLoop, World.lengthLoop]
    cases pyGet butils.tValues (i : Int) with
    | error e => exact read_same hc hp (.error _)
    | ok tv =>
      cases pyGet butils.cValues (i : Int) with
      | error e => exact read_same hc hp (.error _)
      | ok cv =>
        simp only
        have h1 := derivative_agrees hc hp ((tv : ℝ) * (1 / 2) + 1 / 2)
        generalize derivative _ p = x at h1
        generalize World.derivative _ w = y at h1
        obtain ⟨a, q⟩ := x
        obtain ⟨b, w'⟩ := y
        cases b with
        | error e => obtain ⟨rfl, h⟩ := agrees_error (R' := Same (α := ℝ)) h1; exact h
        | ok d =>
          obtain ⟨d, rfl, rfl, hc', hp'⟩ := agrees_ok h1
          exact agrees_trans h1 same_shrink (ih hc' hp' _)

theorem length_agrees (hc : IsCurve S p.heap p.curve w.obj) (hp : p.prec = w.prec) : Agrees S p Same (length p) (World.length w) := by
  have h1 := lengthLoop_agrees (List.range butils.tValues.length) (p := { p with prec := p.prec + 2 }) (w := { w with prec := w.prec + 2 })
    hc (by simp [hp]) 0
  have key : Agrees S p Same (match lengthLoop (List.range butils.tValues.length) 0 { p with prec := p.prec + 2 } with
    | (.error e, p) => ((.error e, p) : Py ℝ × Place)
    | (.ok sum, p) =>
      let length := 1 / 2 * sum
      (.ok length, { p with prec := p.prec - 2, curve := { p.curve with len := some length } }))
    (match World.lengthLoop (List.range butils.tValues.length) 0 { w with prec := w.prec + 2 } with
    | (.error e, w) => ((.error e, w) : Py ℝ × World)
    | (.ok sum, w) =>
      let length := 1 / 2 * sum
      (.ok length, { w with prec := w.prec - 2, obj := { w.obj with len := some length } })) := by
    generalize lengthLoop _ 0 _ = x at h1
    generalize World.lengthLoop _ 0 _ = y at h1
    obtain ⟨a, q⟩ := x
    obtain ⟨b, w'⟩ := y
    obtain ⟨c1, c2, c3, c4⟩ := h1
    simp only at c1 c2 c3 c4
    cases b with
    | error e =>
      simp only at c4
      subst c4
      exact ⟨c1, c2, ⟨c3.length, c3.points, c3.same, c3.ext⟩, rfl⟩
    | ok d =>
      obtain ⟨_, rfl, rfl⟩ := c4
      exact ⟨⟨c1.notOwn, c1.points, c1.val, c1.dc, c1.ext, rfl, c1.box, c1.rect, c1.lut⟩, by simp [c2], ⟨c3.length, c3.points, c3.same, c3.ext⟩, _, rfl, rfl⟩
  unfold length World.length
  rw [← hc.len]
  cases hb : p.curve.len with
  | none => exact key
  | some l =>
    simp only
    split_ifs
    · exact key
    · exact read_same hc hp (.ok _)

theorem reduce_agrees (hc : IsCurve S p.heap p.curve w.obj) (hp : p.prec = w.prec) : Agrees S p Same (reduce p) (World.reduce w) := by
  obtain ⟨h1, hx⟩ := extrema_agrees hc hp
  unfold reduce World.reduce
  generalize extrema p = x at h1 hx
  generalize World.extrema w = y at h1
  obtain ⟨a, q⟩ := x
  obtain ⟨b, w'⟩ := y
  cases b with
  | error e => obtain ⟨rfl, h⟩ := agrees_error (R' := Same (α := List Bezier)) h1; exact h
  | ok e =>
    obtain ⟨r, rfl, hr, hc', hp'⟩ := agrees_ok h1
    have hext : q.curve.ext = some r := hx r rfl
    refine agrees_trans h1 same_shrink ?_
    have k1 := complete_agrees (e' := { e with all := addEnds e.all }) hc' hp' hext r.2.2 (.inr (.inr rfl)) hr.2.2.1.2 (set_all hr _)
      (reduceWith w'.obj.val e.all)
    have run : onHeap (do
        let l ← loadNums r.2.2
        storeNums r.2.2 (addEnds l)
        let ps ← loadPts q.curve.points
        ofPy (reduceWith (view q.curve ps) l)) q = (reduceWith w'.obj.val e.all, { q with heap := q.heap.set r.2.2 (.nums (addEnds e.all)) }) := by
      unfold onHeap
      rw [bind_ok _ _ _ _ _ (loadNums_run hr.2.2.1.2), bind_ok _ _ _ _ _ (storeNums_run _ hr.2.2.1.2),
        bind_ok _ _ _ _ _ (loadPts_run (keep_pts hr.2.2.1.2 hc'.points)), ofPy_run, ← hc'.val]
    simp only [run]
    exact k1

/-! ### The look-up table -/

theorem lutLoop_run (ps : Segment ℝ) (steps : Int) (a : Nat) (ts : List Nat) (h : Heap ℝ) (l0 : Segment ℝ) (ha : h[a]? = some (.pts l0))
    (vs : Segment ℝ) (hv : ts.mapM (fun (t : Nat) => do Bezier.get ps (← pdiv (t : ℝ) (steps : ℝ))) = .ok vs) :
    lutLoop a ps steps ts h = (.ok (), h.set a (.pts (l0 ++ vs))) := by
  unfold lutLoop
  induction ts generalizing h l0 vs with
  | nil =>
    have : vs = [] := by cases hv; rfl
    subst this
    rw [List.append_nil, set_cell ha]
    rfl
  | cons t ts ih =>
    rw [List.mapM_cons] at hv
    obtain ⟨v, h1, h2⟩ := bind_eq_ok.mp hv
    obtain ⟨vs', h3, h4⟩ := bind_eq_ok.mp h2
    cases h4
    rw [forM_cons_run, bind_ok _ _ h (h.set a (.pts (l0 ++ [v]))) () ?_, ih (h.set a (.pts (l0 ++ [v]))) (l0 ++ [v]) ?_ vs' h3]
    · simp
    · rw [List.getElem?_set_self (lt_of_cell ha)]
    · rw [bind_ok _ _ _ _ _ (by rw [ofPy_run, h1]), appendPt_run v ha]

/-- The only exception of the loop comes from its first round. -/
theorem lutLoop_error (ps : Segment ℝ) (steps : Int) (a : Nat) (h : Heap ℝ) (e : PyErr) (he : lutOf ps steps = .error e) :
    lutLoop a ps (steps - 1) (List.range (steps - 1 + 1).toNat) h = (.error e, h) := by
  unfold lutOf at he
  simp only at he
  have hfirst : ∀ ts : List Nat, ts.mapM (fun (t : Nat) => do Bezier.get ps (← pdiv (t : ℝ) ((steps - 1 : Int) : ℝ))) = .error e →
      (∀ t ∈ ts, ∃ e', (do Bezier.get ps (← pdiv (t : ℝ) ((steps - 1 : Int) : ℝ))) = .error e') →
      lutLoop a ps (steps - 1) ts h = (.error e, h) := by
    intro ts h1 h2
    cases ts with
    | nil => cases h1
    | cons t ts =>
      obtain ⟨e', h3⟩ := h2 t (by simp)
      rw [List.mapM_cons, h3, error_bind] at h1
      cases h1
      unfold lutLoop
      rw [forM_cons_run, bind_error]
      rw [bind_error]
      rw [ofPy_run, h3]
  by_cases hs : ((steps - 1 : Int) : ℝ) = 0
  · refine hfirst _ he fun t _ => ⟨.zeroDivisionError, ?_⟩
    rw [hs]
    simp [pdiv, error_bind]
  · by_cases hps : ps = []
    · refine hfirst _ he fun t _ => ⟨.indexError, ?_⟩
      rw [pdiv_of_ne _ hs, ok_bind, hps]
      unfold Bezier.get
      simp [order, pyGet]
    · rw [mapM_ok _ (fun t : Nat => Spec.curve ps ((t : ℝ) / ((steps - 1 : Int) : ℝ))) _ (fun t _ => by rw [pdiv_of_ne _ hs, ok_bind, get_ok ps hps])] at he
      cases he

theorem getLUT_agrees (hc : IsCurve S p.heap p.curve w.obj) (hp : p.prec = w.prec) (steps : Int) :
    Agrees S p IsSegment (getLUT steps p) (World.getLUT steps w) := by
  unfold getLUT World.getLUT
  simp only [onHeap_read (loadPts_run hc.lut.2)]
  by_cases hs : (w.obj.lut.length : Int) = steps
  · rw [if_pos hs, if_pos hs]
    exact read_agrees hc hp _ _ ⟨_, rfl, .inl hc.lut.1, hc.lut.2⟩
  rw [if_neg hs, if_neg hs]
  set n := p.heap.length with hn
  have hpre : p.heap <+: p.heap ++ [Cell.pts []] := ⟨_, rfl⟩
  have hc1 := hc.grow hpre
  have h1 : onHeap (alloc (.pts [])) p = (.ok n, { p with heap := p.heap ++ [Cell.pts []] }) := rfl
  have hcell : (p.heap ++ [Cell.pts []])[n]? = some (.pts []) := by simp [hn]
  have hpts : (p.heap ++ [Cell.pts []])[p.curve.points]? = some (.pts w.obj.pts) := hc1.points
  simp only [h1]
  cases hl : lutOf w.obj.pts steps with
  | error e =>
    have run : onHeap (do lutLoop n (← loadPts p.curve.points) (steps - 1) (List.range (steps - 1 + 1).toNat))
        ⟨{ p.curve with lut := n }, p.prec, p.heap ++ [Cell.pts []]⟩ = (.error e, ⟨{ p.curve with lut := n }, p.prec, p.heap ++ [Cell.pts []]⟩) := by
      apply onHeap_read
      simp only
      rw [bind_ok _ _ _ _ _ (loadPts_run hpts), lutLoop_error _ _ _ _ _ hl]
    simp only [run]
    exact ⟨⟨hc1.notOwn, hc1.points, hc1.val, hc1.dc, hc1.ext, hc1.len, hc1.box, hc1.rect, .inr (by simp [newSince, hn]), hcell⟩, hp,
      ⟨hpre.length_le, rfl, fun i hi _ => prefix_get hpre hi, fun _ hi => .inl hi⟩, rfl⟩
  | ok l =>
    have hpre2 : p.heap <+: (p.heap ++ [Cell.pts []]).set n (Cell.pts l) := set_prefix hpre le_rfl _
    have hc2 := hc.grow hpre2
    have run : onHeap (do lutLoop n (← loadPts p.curve.points) (steps - 1) (List.range (steps - 1 + 1).toNat))
        ⟨{ p.curve with lut := n }, p.prec, p.heap ++ [Cell.pts []]⟩ =
        (.ok (), ⟨{ p.curve with lut := n }, p.prec, (p.heap ++ [Cell.pts []]).set n (Cell.pts l)⟩) := by
      unfold onHeap
      simp only
      rw [bind_ok _ _ _ _ _ (loadPts_run hpts), lutLoop_run _ _ _ _ _ [] hcell l (by exact hl)]
      rfl
    simp only [run]
    have hcell2 : ((p.heap ++ [Cell.pts []]).set n (Cell.pts l))[n]? = some (Cell.pts l) := by
      rw [List.getElem?_set_self (lt_of_cell hcell)]
    have hseg : IsSegment (S ∪ newSince n) ((p.heap ++ [Cell.pts []]).set n (Cell.pts l)) n l := ⟨.inr (by simp [newSince]), hcell2⟩
    exact ⟨⟨hc2.notOwn, hc2.points, hc2.val, hc2.dc, hc2.ext, hc2.len, hc2.box, hc2.rect, hseg⟩, hp,
      ⟨hpre2.length_le, rfl, fun i hi _ => prefix_get hpre2 hi, fun _ hi => .inl hi⟩, _, rfl, hseg⟩

/-! ### Creating curves and contours -/

theorem new_run {h : Heap ℝ} {r : Nat} {ps : Segment ℝ} (hr : h[r]? = some (.pts ps)) :
    match Bezier.new ps with
    | .ok b => ∃ c, Curve.new r h = (.ok c, h ++ [.pts []]) ∧ c.points = r ∧ IsCurve (newSince h.length) (h ++ [.pts []]) c { val := b }
    | .error e => Curve.new r h = (.error e, h ++ [.pts []]) := by
  have hpre : h <+: h ++ [Cell.pts []] := ⟨_, rfl⟩
  have hr' := prefix_cell hpre hr
  have hlt := lt_of_cell hr
  unfold Curve.new
  rw [bind_ok _ _ _ _ _ (alloc_run _ _), bind_ok _ _ _ _ _ (loadPts_run hr')]
  cases hb : Bezier.new ps with
  | error e => exact bind_error _ _ _ _ _ (by rw [ofPy_run])
  | ok b =>
    have hps : b.controlPoints = ps := by
      unfold Bezier.new at hb
      obtain ⟨_, _, hb⟩ := bind_eq_ok.mp hb
      obtain ⟨_, _, hb⟩ := bind_eq_ok.mp hb
      obtain ⟨_, _, hb⟩ := bind_eq_ok.mp hb
      obtain ⟨_, _, hb⟩ := bind_eq_ok.mp hb
      obtain ⟨_, _, hb⟩ := bind_eq_ok.mp hb
      cases hb
      rfl
    subst hps
    rw [bind_ok _ _ _ _ _ (by rw [ofPy_run]), pure_run]
    refine ⟨_, rfl, rfl, ?_, hr', rfl, .none, .none, rfl, rfl, rfl, ?_, by simp⟩
    · simp only [newSince, Set.mem_ofPred_eq]; omega
    · simp [newSince]

end Curve
end PathLib.Heap
