import Verif.Spec.Heap

/-!
# Running programs on the heap
-/

namespace PathLib.Heap
open Spec
variable {K α β γ : Type}

theorem bind_run (x : Prog K α) (f : α → Prog K β) (h : Heap K) :
    (x >>= f) h = match x h with
      | (.ok a, h) => f a h
      | (.error e, h) => (.error e, h) := rfl

instance : LawfulMonad (Prog K) := LawfulMonad.mk'
  (id_map := fun x => by
    funext h
    show (match x h with | (.ok a, h) => _ | (.error e, h) => _) = x h
    rcases x h with ⟨_ | _, _⟩ <;> rfl)
  (pure_bind := fun _ _ => rfl)
  (bind_assoc := fun x f g => by
    funext h
    show (match (match x h with | (.ok a, h) => f a h | (.error e, h) => (.error e, h)) with
        | (.ok a, h) => g a h | (.error e, h) => (.error e, h)) =
      (match x h with
        | (.ok a, h) => (match f a h with | (.ok a, h) => g a h | (.error e, h) => (.error e, h))
        | (.error e, h) => (.error e, h))
    rcases x h with ⟨_ | _, _⟩ <;> rfl)

theorem forM_cons_run (f : α → Prog K PUnit) (x : α) (xs : List α) (h : Heap K) :
    (x :: xs).forM f h = (f x >>= fun _ => xs.forM f) h := rfl

theorem pure_run (a : α) (h : Heap K) : (pure a : Prog K α) h = (.ok a, h) := rfl

theorem ofPy_run (x : Py α) (h : Heap K) : (ofPy x : Prog K α) h = (x, h) := rfl

theorem bind_ok (x : Prog K α) (f : α → Prog K β) (h h' : Heap K) (a : α) (hx : x h = (.ok a, h')) :
    (x >>= f) h = f a h' := by rw [bind_run, hx]

theorem bind_error (x : Prog K α) (f : α → Prog K β) (h h' : Heap K) (e : PyErr) (hx : x h = (.error e, h')) :
    (x >>= f) h = (.error e, h') := by rw [bind_run, hx]

theorem loadNums_run {h : Heap K} {r : Nat} {l : List K} (hr : h[r]? = some (.nums l)) : loadNums r h = (.ok l, h) := by
  unfold loadNums; rw [hr]

theorem loadPts_run {h : Heap K} {r : Nat} {l : List (Pt K)} (hr : h[r]? = some (.pts l)) : loadPts r h = (.ok l, h) := by
  unfold loadPts; rw [hr]

theorem loadRefs_run {h : Heap K} {r : Nat} {l : List Nat} (hr : h[r]? = some (.refs l)) : loadRefs r h = (.ok l, h) := by
  unfold loadRefs; rw [hr]

theorem appendPt_run {h : Heap K} {r : Nat} {l : List (Pt K)} (p : Pt K) (hr : h[r]? = some (.pts l)) :
    appendPt r p h = (.ok (), h.set r (.pts (l ++ [p]))) := by
  unfold appendPt; rw [hr]

theorem extendRefs_run {h : Heap K} {r : Nat} {l : List Nat} (x : List Nat) (hr : h[r]? = some (.refs l)) :
    extendRefs r x h = (.ok (), h.set r (.refs (l ++ x))) := by
  unfold extendRefs; rw [hr]

theorem alloc_run (c : Cell K) (h : Heap K) : alloc c h = (.ok h.length, h ++ [c]) := rfl

theorem lt_of_cell {h : Heap K} {r : Nat} {c : Cell K} (hr : h[r]? = some c) : r < h.length :=
  (List.getElem?_eq_some_iff.mp hr).1

theorem set_cell {h : Heap K} {r : Nat} {c : Cell K} (hr : h[r]? = some c) : h.set r c = h := by
  obtain ⟨hl, rfl⟩ := List.getElem?_eq_some_iff.mp hr
  exact List.set_getElem_self hl

theorem prefix_get {h h' : Heap K} (hp : h <+: h') {i : Nat} (hi : i < h.length) : h'[i]? = h[i]? := by
  obtain ⟨t, rfl⟩ := hp
  rw [List.getElem?_append_left hi]

theorem prefix_of_get {h h' : Heap K} (hg : ∀ i < h.length, h'[i]? = h[i]?) : h <+: h' := by
  rw [List.prefix_iff_eq_take]
  apply List.ext_getElem?
  intro i
  rw [List.getElem?_take]
  split_ifs with hi
  · exact (hg i hi).symm
  · rw [List.getElem?_eq_none (by omega)]

theorem prefix_cell {h h' : Heap K} (hp : h <+: h') {i : Nat} {c : Cell K} (hi : h[i]? = some c) : h'[i]? = some c := by
  rw [prefix_get hp (lt_of_cell hi), hi]

theorem set_prefix {h0 h : Heap K} (hp : h0 <+: h) {t : Nat} (ht : h0.length ≤ t) (c : Cell K) : h0 <+: h.set t c := by
  apply prefix_of_get
  intro i hi
  rw [List.getElem?_set_ne (by omega), prefix_get hp hi]

/-- A property of lists on the heap that depends only on the lists at the addresses in the set. -/
def Local (B : Set Nat → Heap K → Nat → β → Prop) : Prop :=
  ∀ S T h h' r b, S ⊆ T → (∀ i ∈ S, ∀ c, h[i]? = some c → h'[i]? = some c) → B S h r b → B T h' r b

theorem local_row : Local (IsRow (K := K)) := fun _ _ _ _ _ _ hST hh hB => ⟨hST hB.1, hh _ hB.1 _ hB.2⟩

theorem local_segment : Local (IsSegment (K := K)) := fun _ _ _ _ _ _ hST hh hB => ⟨hST hB.1, hh _ hB.1 _ hB.2⟩

theorem local_list {B : Set Nat → Heap K → Nat → β → Prop} (hB : Local B) : Local (IsListOf B) := by
  rintro S T h h' r b hST hh ⟨hr, rs, h1, h2⟩
  exact ⟨hST hr, rs, hh _ hr _ h1, h2.imp fun _ _ => hB S T h h' _ _ hST hh⟩

theorem local_matrix : Local (IsMatrix (K := K)) := local_list local_row
theorem local_contour : Local (IsContour (K := K)) := local_list local_segment
theorem local_contours : Local (IsContours (K := K)) := local_list local_contour

/-- Nothing is read beyond the end of the heap. -/
def Inside (B : Set Nat → Heap K → Nat → β → Prop) : Prop :=
  ∀ S h r b, B S h r b → B (S ∩ {i | i < h.length}) h r b

theorem inside_row : Inside (IsRow (K := K)) := fun _ _ _ _ hB => ⟨⟨hB.1, lt_of_cell hB.2⟩, hB.2⟩
theorem inside_segment : Inside (IsSegment (K := K)) := fun _ _ _ _ hB => ⟨⟨hB.1, lt_of_cell hB.2⟩, hB.2⟩
theorem inside_list {B : Set Nat → Heap K → Nat → β → Prop} (hB : Inside B) : Inside (IsListOf B) := by
  rintro S h r b ⟨hr, rs, h1, h2⟩
  exact ⟨⟨hr, lt_of_cell h1⟩, rs, h1, h2.imp fun _ _ => hB S h _ _⟩
theorem inside_matrix : Inside (IsMatrix (K := K)) := inside_list inside_row
theorem inside_contour : Inside (IsContour (K := K)) := inside_list inside_segment
theorem inside_contours : Inside (IsContours (K := K)) := inside_list inside_contour

theorem Local.grow {B : Set Nat → Heap K → Nat → β → Prop} (hB : Local B) {S : Set Nat} {h h' : Heap K} {r : Nat} {b : β}
    (hp : h <+: h') (hb : B S h r b) : B S h' r b :=
  hB S S h h' r b (fun _ hi => hi) (fun _ _ _ hc => prefix_cell hp hc) hb

theorem Local.same {B : Set Nat → Heap K → Nat → β → Prop} (hB : Local B) {S : Set Nat} {h h' : Heap K} {r : Nat} {b : β}
    (hs : SameOn S h h') (hb : B S h r b) : B S h' r b :=
  hB S S h h' r b (fun _ hi => hi) (fun i hi _ hc => by rw [hs i hi, hc]) hb

/-- Changing a list outside the set, or one that is not there yet. -/
theorem Local.set {B : Set Nat → Heap K → Nat → β → Prop} (hB : Local B) {S : Set Nat} {h : Heap K} {r t : Nat} {b : β} {c : Cell K}
    (ht : t ∉ S) (hb : B S h r b) : B S (h.set t c) r b :=
  hB.same (fun i hi => List.getElem?_set_ne (by rintro rfl; exact ht hi)) hb

/-! ### Programs that create a list -/

/-- On every heap that extends `h0`, the program `f` changes no list that exists, and either raises the exception or returns a list that stands for the
value of `res` and consists of new lists only. -/
def Creates (h0 : Heap K) (f : Prog K Nat) (res : Py β) (B : Set Nat → Heap K → Nat → β → Prop) : Prop :=
  ∀ h, h0 <+: h → ∃ r h', f h = (r, h') ∧ h <+: h' ∧
    match res with
    | .ok b => ∃ a, r = .ok a ∧ B (newSince h.length) h' a b
    | .error e => r = .error e

theorem loadMatrix_run {S : Set Nat} {h : Heap K} {m : Nat} {M : Mat K} (hM : IsMatrix S h m M) :
    loadMatrix m h = (.ok M, h) := by
  obtain ⟨_, rs, h1, h2⟩ := hM
  unfold loadMatrix
  rw [bind_ok _ _ _ _ _ (loadRefs_run h1)]
  clear h1
  induction h2 with
  | nil => rfl
  | cons hab _ ih =>
    rw [List.mapM_cons, bind_ok _ _ _ _ _ (loadNums_run hab.2), bind_ok _ _ _ _ _ ih, pure_run]

/-- The loop that appends new lists to the list at `t`. -/
theorem loop_creates {B : Set Nat → Heap K → Nat → β → Prop} (hB : Local B) (hI : Inside B) (h0 : Heap K) (f : γ → Prog K Nat) (g : α → Py β)
    (xs : List γ) (as : List α) (hf : List.Forall₂ (fun x a => Creates h0 (f x) (g a) B) xs as) (t : Nat) (ht : h0.length ≤ t)
    (h : Heap K) (hp : h0 <+: h) (rs0 : List Nat) (hr : h[t]? = some (.refs rs0)) :
    ∃ r h', (xs.forM fun (x : γ) => do extendRefs t [← f x]) h = (r, h') ∧ h.length ≤ h'.length ∧
      (∀ i < h.length, i ≠ t → h'[i]? = h[i]?) ∧
      match as.mapM g with
      | .ok bs => r = .ok () ∧ ∃ rs, h'[t]? = some (.refs (rs0 ++ rs)) ∧ List.Forall₂ (B (newSince h.length) h') rs bs
      | .error e => r = .error e := by
  induction hf generalizing h rs0 with
  | nil => exact ⟨.ok (), h, rfl, le_refl _, fun _ _ _ => rfl, rfl, [], by simpa using hr, .nil⟩
  | @cons x a xs as hxa _ ih =>
    obtain ⟨r, h1, e1, p1, q1⟩ := hxa h hp
    have htl : t < h.length := lt_of_cell hr
    simp only [forM_cons_run]
    cases hg : g a with
    | error e =>
      rw [hg] at q1
      simp only at q1
      subst q1
      refine ⟨.error e, h1, ?_, p1.length_le, fun i hi _ => prefix_get p1 hi, ?_⟩
      · rw [bind_error]
        rw [bind_error _ _ _ _ _ e1]
      · rw [List.mapM_cons, hg]; rfl
    | ok b =>
      rw [hg] at q1
      obtain ⟨y, rfl, hy⟩ := q1
      have e2 := extendRefs_run [y] (prefix_cell p1 hr)
      have hp2 : h0 <+: h1.set t (.refs (rs0 ++ [y])) := set_prefix (hp.trans p1) ht _
      obtain ⟨r', h', e3, l3, k3, q3⟩ := ih (h1.set t (.refs (rs0 ++ [y]))) hp2 (rs0 ++ [y])
        (by rw [List.getElem?_set_self (by have := p1.length_le; omega)])
      have hl1 := p1.length_le
      refine ⟨r', h', ?_, by simp at l3; omega, ?_, ?_⟩
      · rw [bind_ok _ _ _ (h1.set t (.refs (rs0 ++ [y]))) (), e3]
        rw [bind_ok _ _ _ _ _ e1, e2]
      · intro i hi hit
        rw [k3 i (by simp; omega) hit, List.getElem?_set_ne (Ne.symm hit), prefix_get p1 hi]
      · rw [List.mapM_cons, hg, ok_bind]
        cases hm : as.mapM g with
        | error e => rw [hm] at q3; exact q3
        | ok bs =>
          rw [hm] at q3
          obtain ⟨h4, rs, h5, h6⟩ := q3
          refine ⟨h4, y :: rs, by simpa using h5, .cons ?_ ?_⟩
          · -- the list created first
            refine hB (newSince h.length ∩ {i | i < h1.length}) _ h1 h' y b (fun i hi => hi.1) ?_ ?_
            · rintro i ⟨hi1, hi2⟩ c hc
              have hit : i ≠ t := by
                rintro rfl; exact absurd hi1 (by simp only [newSince, Set.mem_ofPred_eq]; omega)
              rw [k3 i (by simpa using hi2) hit, List.getElem?_set_ne (Ne.symm hit), hc]
            · exact hI _ _ _ _ hy
          · refine h6.imp fun _ _ hb => hB _ _ h' h' _ _ ?_ (fun _ _ _ hc => hc) hb
            intro i hi
            simp only [newSince, Set.mem_ofPred_eq, List.length_set] at hi ⊢
            omega

/-- A new list of the results for the items of the list at `r`. -/
theorem list_creates {A : Set Nat → Heap K → Nat → α → Prop} {B : Set Nat → Heap K → Nat → β → Prop} (hB : Local B) (hI : Inside B)
    (h0 : Heap K) (f : Nat → Prog K Nat) (g : α → Py β) (S : Set Nat) (r : Nat) (as : List α) (hr : IsListOf A S h0 r as)
    (hf : ∀ x a, A S h0 x a → Creates h0 (f x) (g a) B) :
    Creates h0 (do
      let t ← alloc (.refs [])
      let xs ← loadRefs r
      xs.forM fun (x : Nat) => do extendRefs t [← f x]
      return t) (as.mapM g) (IsListOf B) := by
  intro h hp
  obtain ⟨_, xs, h1, h2⟩ := hr
  have hp1 : h <+: h ++ [Cell.refs []] := ⟨_, rfl⟩
  obtain ⟨r', h', e, l, k, q⟩ := loop_creates hB hI h0 f g xs as (h2.imp fun x a ha => hf x a ha) h.length hp.length_le
    (h ++ [Cell.refs []]) (hp.trans hp1) [] (by simp)
  have hpre : h <+: h' := by
    apply prefix_of_get
    intro i hi
    rw [k i (by simp; omega) (by omega), prefix_get hp1 hi]
  rw [bind_ok _ _ _ _ _ (alloc_run _ _), bind_ok _ _ _ _ _ (loadRefs_run (prefix_cell (hp.trans hp1) h1))]
  cases hm : as.mapM g with
  | error er =>
    rw [hm] at q
    simp only at q
    subst q
    exact ⟨_, _, bind_error _ _ _ _ _ e, hpre, rfl⟩
  | ok bs =>
    rw [hm] at q
    obtain ⟨rfl, rs, h3, h4⟩ := q
    refine ⟨_, _, bind_ok _ _ _ _ _ e, hpre, h.length, rfl, ?_, rs, by simpa using h3, h4.imp fun _ _ hb => ?_⟩
    · simp [newSince]
    · refine hB _ _ _ _ _ _ ?_ (fun _ _ _ hc => hc) hb
      intro i hi
      simp only [newSince, Set.mem_ofPred_eq, List.length_append, List.length_cons, List.length_nil] at hi ⊢
      omega

section transform
variable [Field K]

theorem row_creates (h0 : Heap K) (S : Set Nat) (x m : Nat) (l : List K) (M : Mat K) (hx : IsRow S h0 x l) (hm : IsMatrix S h0 m M) :
    Creates h0 (multiplyRowByMatrix x m) (Transform.multiplyRowByMatrix l M) IsRow := by
  intro h hp
  unfold multiplyRowByMatrix
  rw [bind_ok _ _ _ _ _ (loadNums_run (local_row.grow hp hx).2), bind_ok _ _ _ _ _ (loadMatrix_run (local_matrix.grow hp hm))]
  cases hr : Transform.multiplyRowByMatrix l M with
  | error e => exact ⟨_, _, bind_error _ _ _ _ _ rfl, List.prefix_rfl, rfl⟩
  | ok row =>
    refine ⟨_, _, bind_ok _ _ _ _ _ rfl, ⟨_, rfl⟩, h.length, rfl, ?_, ?_⟩
    · simp [newSince]
    · simp

theorem matrix_creates (h0 : Heap K) (S : Set Nat) (m1 m2 : Nat) (M1 M2 : Mat K) (h1 : IsMatrix S h0 m1 M1) (h2 : IsMatrix S h0 m2 M2) :
    Creates h0 (multiplyMatrixByMatrix m1 m2) (Transform.multiplyMatrixByMatrix M1 M2) IsMatrix :=
  list_creates local_row inside_row h0 (fun x => multiplyRowByMatrix x m2) (fun row => Transform.multiplyRowByMatrix row M2) S m1 M1 h1
    fun x l hx => row_creates h0 S x m2 l M2 hx h2

variable [DecidableEq K]

theorem segLoop_run (S : Set Nat) (m t : Nat) (M : Mat K) (ht : t ∉ S) (ps : List (Pt K)) (h : Heap K) (hm : IsMatrix S h m M)
    (acc : List (Pt K)) (hr : h[t]? = some (.pts acc)) :
    ∃ l, (ps.forM fun (p : Pt K) => do appendPt t (← applyToPoint m p)) h =
        (match ps.mapM (Transform.applyToPoint ⟨M⟩) with | .ok _ => .ok () | .error e => .error e, h.set t (.pts l)) ∧
      ∀ out, ps.mapM (Transform.applyToPoint ⟨M⟩) = .ok out → l = acc ++ out := by
  induction ps generalizing h acc with
  | nil =>
    refine ⟨acc, ?_, by simp [pure, Except.pure]⟩
    rw [set_cell hr]
    rfl
  | cons p ps ih =>
    have e1 : (applyToPoint m p : Prog K (Pt K)) h = (Transform.applyToPoint ⟨M⟩ p, h) := by
      unfold applyToPoint
      rw [bind_ok _ _ _ _ _ (loadMatrix_run hm)]
      rfl
    simp only [forM_cons_run, List.mapM_cons]
    cases hq : Transform.applyToPoint ⟨M⟩ p with
    | error e =>
      rw [hq] at e1
      refine ⟨acc, ?_, by simp⟩
      rw [bind_error _ _ _ _ _ (bind_error _ _ _ _ _ e1), set_cell hr]
      rfl
    | ok q =>
      rw [hq] at e1
      obtain ⟨l, h1, h2⟩ := ih (h.set t (.pts (acc ++ [q]))) (local_matrix.set ht hm) (acc ++ [q])
        (List.getElem?_set_self (lt_of_cell hr))
      refine ⟨l, ?_, ?_⟩
      · rw [bind_ok _ _ _ _ _ ((bind_ok _ _ _ _ _ e1).trans (appendPt_run q hr)), h1, List.set_set]
        cases ps.mapM (Transform.applyToPoint ⟨M⟩) <;> rfl
      · intro out ho
        simp only [ok_bind] at ho
        cases hps : ps.mapM (Transform.applyToPoint ⟨M⟩) with
        | error e => rw [hps] at ho; simp at ho
        | ok o =>
          rw [hps] at ho
          simp only [ok_bind, pure_eq_ok, Except.ok.injEq] at ho
          rw [h2 o hps, ← ho]
          simp

theorem segment_creates (h0 : Heap K) (S : Set Nat) (m r : Nat) (M : Mat K) (s : Segment K) (hm : IsMatrix S h0 m M)
    (hr : IsSegment S h0 r s) : Creates h0 (applyToSegment m r) (Transform.applyToSegment ⟨M⟩ s) IsSegment := by
  intro h hp
  have hp1 : h <+: h ++ [Cell.pts []] := ⟨_, rfl⟩
  have hm1 := inside_matrix _ _ _ _ (local_matrix.grow hp hm)
  obtain ⟨l, h1, h2⟩ := segLoop_run _ m h.length M (fun hi => absurd hi.2 (by simp)) s (h ++ [Cell.pts []])
    (local_matrix.grow hp1 hm1) [] (by simp)
  unfold applyToSegment Transform.applyToSegment
  rw [bind_ok _ _ _ _ _ (alloc_run _ _), bind_ok _ _ _ _ _ (loadPts_run (prefix_cell (hp.trans hp1) hr.2))]
  have hset : (h ++ [Cell.pts []]).set h.length (Cell.pts l) = h ++ [Cell.pts l] := by simp
  rw [hset] at h1
  cases ho : s.mapM (Transform.applyToPoint ⟨M⟩) with
  | error e =>
    rw [ho] at h1
    exact ⟨_, _, bind_error _ _ _ _ _ h1, ⟨_, rfl⟩, rfl⟩
  | ok out =>
    rw [ho] at h1
    refine ⟨_, _, bind_ok _ _ _ _ _ h1, ⟨_, rfl⟩, h.length, rfl, by simp [newSince], ?_⟩
    rw [h2 out ho]
    simp

theorem contour_creates (h0 : Heap K) (S : Set Nat) (m r : Nat) (M : Mat K) (c : Contour K) (hm : IsMatrix S h0 m M)
    (hr : IsContour S h0 r c) : Creates h0 (applyToContour m r) (Transform.applyToContour ⟨M⟩ c) IsContour :=
  list_creates local_segment inside_segment h0 (fun x => applyToSegment m x) (fun s => Transform.applyToSegment ⟨M⟩ s) S r c hr
    fun x s hx => segment_creates h0 S m x M s hm hx

theorem contours_creates (h0 : Heap K) (S : Set Nat) (m r : Nat) (M : Mat K) (cs : List (Contour K)) (hm : IsMatrix S h0 m M)
    (hr : IsContours S h0 r cs) : Creates h0 (applyToContours m r) (Transform.applyToContours ⟨M⟩ cs) IsContours :=
  list_creates local_contour inside_contour h0 (fun x => applyToContour m x) (fun s => Transform.applyToContour ⟨M⟩ s) S r cs hr
    fun x s hx => contour_creates h0 S m x M s hm hx

end transform
end PathLib.Heap
