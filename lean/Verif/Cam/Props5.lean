import Verif.Cam.Props4

/-!
# C28, C29: flipping paths and the `optimize` sort
-/

set_option linter.unusedSectionVars false

namespace Verif.Cam
open Verif PyFloat PyTrig Geom GCode

/-! ## C28 -/

section
variable {K : Type} [PyTrig K]

/-- Specification: a line or arc traversed backwards (end points swapped, sweep negated, same circle). -/
def backwards : Seg K → Seg K
  | ⟨.line l, _⟩ => ⟨.line ⟨l.p2, l.p1⟩, {}⟩
  | ⟨.arc a, _⟩ => ⟨.arc ⟨a.p2, a.p1, a.radius, PyFloat.neg a.angle, a.center⟩, {}⟩
  | s => s

/-- Specification: a path of lines and arcs traversed backwards. -/
def pathBackwards (p : Path K) : Path K := (p.map backwards).reverse

theorem pathReversed_eq (p : Path K) (hp : SimplePath p) : pathReversed p = pathBackwards p := by
  unfold pathReversed pathBackwards
  rw [List.map_reverse]
  congr 1
  apply List.map_congr_left
  intro s hs
  obtain ⟨sh, h⟩ := s
  rcases hp _ hs with ⟨l, hl⟩ | ⟨a, ha⟩
  · cases hl; rfl
  · cases ha; rfl

theorem pathReversed_ne (p : Path K) (h : p ≠ []) : pathReversed p ≠ [] := by
  unfold pathReversed; simpa using h

/-- What `flipLoop` does, element by element; `ends` lists the end point preceding each path. -/
inductive Flipped : P K → List (Path K) → List (Path K) → Prop
  | nil (q : P K) : Flipped q [] []
  | cons (q : P K) (p p' : Path K) (a b c : Seg K) (l l' : List (Path K)) : p.head? = some a → p.getLast? = some b →
      p' = (if q.distance b.p2 <. q.distance a.p1 then pathReversed p else p) → p'.getLast? = some c →
      Flipped c.p2 l l' → Flipped q (p :: l) (p' :: l')

theorem flipLoop_spec (q : P K) (l r : List (Path K)) (h : flipLoop q l = .ok r) : Flipped q l r := by
  induction l generalizing q r with
  | nil => unfold flipLoop at h; cases h; exact .nil q
  | cons p l ih =>
    unfold flipLoop at h
    split at h
    · rename_i a b ha hb
      dsimp only at h
      split at h
      · rename_i c hc
        simp only [bind, Except.bind] at h
        cases ht : flipLoop c.p2 l with
        | error er => rw [ht] at h; cases h
        | ok tl =>
          rw [ht] at h
          cases h
          exact .cons q p _ a b c l tl ha hb rfl hc (ih _ _ ht)
      · cases h
    · cases h

theorem flipLoop_total (q : P K) (l : List (Path K)) (hl : ∀ p ∈ l, p ≠ []) : ∃ r, flipLoop q l = .ok r := by
  induction l generalizing q with
  | nil => exact ⟨[], rfl⟩
  | cons p l ih =>
    have hp : p ≠ [] := hl p (by simp)
    have ha : p.head? = some (p.head hp) := List.head?_eq_some_head hp
    have hb : p.getLast? = some (p.getLast hp) := List.getLast?_eq_some_getLast hp
    unfold flipLoop
    rw [ha, hb]
    dsimp only
    have hp' : (if q.distance (p.getLast hp).p2 <. q.distance (p.head hp).p1 then pathReversed p else p) ≠ [] := by
      split
      · exact pathReversed_ne p hp
      · exact hp
    rw [List.getLast?_eq_some_getLast hp']
    obtain ⟨r, hr⟩ := ih ((if q.distance (p.getLast hp).p2 <. q.distance (p.head hp).p1 then pathReversed p
      else p).getLast hp').p2 (fun x hx => hl x (by simp [hx]))
    dsimp only
    rw [hr]
    exact ⟨_, rfl⟩

theorem Flipped.length {q : P K} {l r : List (Path K)} (h : Flipped q l r) : r.length = l.length := by
  induction h with
  | nil => rfl
  | cons => simp_all

theorem Flipped.forall₂ {q : P K} {l r : List (Path K)} (h : Flipped q l r) :
    List.Forall₂ (fun a b => b = a ∨ b = pathReversed a) l r := by
  induction h with
  | nil => exact .nil
  | cons q p p' a b c l l' _ _ hp' _ _ ih =>
    refine .cons ?_ ih
    rw [hp']
    split
    · exact Or.inr rfl
    · exact Or.inl rfl

end

/-- Specification: the point a non-empty path ends at. -/
noncomputable def endOf (p : Path ℝ) : P ℝ := (p.getLast?.map Seg.p2).getD ⟨0, 0⟩

/-- Euclidean distance. -/
noncomputable def eucl (a b : P ℝ) : ℝ := Real.sqrt ((a.x - b.x) ^ 2 + (a.y - b.y) ^ 2)

open Classical in
theorem Flipped.get {q : P ℝ} {l r : List (Path ℝ)} (h : Flipped q l r) (hs : ∀ p ∈ l, SimplePath p) :
    ∀ i (hi : i < l.length) (hr : i < r.length) (pe : P ℝ),
      pe = (if h0 : i = 0 then q else endOf (r[i - 1]'(by omega))) →
      r[i] = if eucl pe (endOf l[i]) < eucl pe (startOf l[i]) then pathBackwards l[i] else l[i] := by
  induction h with
  | nil => intro i hi; simp at hi
  | cons q p p' a b c l l' ha hb hp' hc hrest ih =>
    intro i hi hr pe hpe
    cases i with
    | zero =>
      simp only [dite_true] at hpe
      subst hpe
      simp only [List.getElem_cons_zero]
      have e1 : endOf p = b.p2 := by simp [endOf, hb]
      have e2 : startOf p = a.p1 := by simp [startOf, ha]
      rw [hp', e1, e2, pathReversed_eq p (hs p (by simp))]
      simp only [real_lt, decide_eq_true_eq]
      rfl
    | succ i =>
      simp only [List.getElem_cons_succ]
      refine ih (fun x hx => hs x (by simp [hx])) i (by simpa using hi) (by simpa using hr) pe ?_
      rw [hpe]
      simp only [Nat.add_one_ne_zero, dite_false, Nat.add_sub_cancel]
      split
      · rename_i h0
        subst h0
        simp only [List.getElem_cons_zero]
        simp [endOf, hc]
      · rename_i h0
        obtain ⟨j, rfl⟩ := Nat.exists_eq_succ_of_ne_zero h0
        simp

open Classical in
/-- **C28** for paths of lines and arcs: `sort_paths(…, 'flip')` keeps the path order, and each path is reversed (segment
order and direction) exactly when its end is strictly closer than its start to the end of the previous (already flipped)
path — where the first path is compared with its own end.  Missing: Bezier segments, whose reversal is wrong
(`C28_refuted_bezier`). -/
theorem C28_flip_partial (e : Env ℝ) (l : List (Path ℝ)) (hne : l ≠ []) (hl : ∀ p ∈ l, p ≠ [])
    (hs : ∀ p ∈ l, ∀ s ∈ p, (∃ x, s.shape = .line x) ∨ ∃ a, s.shape = .arc a) :
    ∃ r, sortPaths e l "flip".toList = .ok r ∧ ∃ hlen : r.length = l.length,
      ∀ i (hi : i < l.length) (prev : P ℝ),
        prev = (if h0 : i = 0 then endOf (l[0]'(by omega)) else endOf (r[i - 1]'(by omega))) →
        r[i] = if eucl prev (endOf l[i]) < eucl prev (startOf l[i]) then pathBackwards l[i] else l[i] := by
  cases l with
  | nil => exact absurd rfl hne
  | cons p l =>
    have hp : p ≠ [] := hl p (by simp)
    obtain ⟨r, hr⟩ := flipLoop_total (p.getLast hp).p2 (p :: l) hl
    have hsp : sortPaths e (p :: l) "flip".toList = .ok r := by
      unfold sortPaths flipPaths
      rw [if_pos rfl]
      dsimp only
      rw [List.getLast?_eq_some_getLast hp]
      exact hr
    have hf := flipLoop_spec _ _ _ hr
    refine ⟨r, hsp, hf.length, ?_⟩
    intro i hi prev hprev
    refine hf.get hs i hi (by rw [hf.length]; exact hi) prev ?_
    rw [hprev]
    split
    · simp [endOf, List.getLast?_eq_some_getLast hp]
    · rfl

theorem eucl_pos {a b : P ℝ} (h : a ≠ b) : 0 < eucl a b := by
  unfold eucl
  apply Real.sqrt_pos.2
  rcases a with ⟨ax, ay⟩
  rcases b with ⟨bx, bye⟩
  by_contra hc
  push Not at hc
  apply h
  have h1 : ax - bx = 0 := by nlinarith [sq_nonneg (ax - bx), sq_nonneg (ay - bye)]
  have h2 : ay - bye = 0 := by nlinarith [sq_nonneg (ax - bx), sq_nonneg (ay - bye)]
  rw [sub_eq_zero] at h1 h2
  simp [h1, h2]

/-- **C28**, consequence for the first path: contrary to the documentation ("the first path in the path list determines the
flip order"), the first path is always reversed unless it is closed. -/
theorem C28_refuted_first_kept (e : Env ℝ) (p : Path ℝ) (l : List (Path ℝ)) (hl : ∀ q ∈ p :: l, q ≠ [])
    (hs : ∀ q ∈ p :: l, ∀ s ∈ q, (∃ x, s.shape = .line x) ∨ ∃ a, s.shape = .arc a)
    (hopen : startOf p ≠ endOf p) :
    ∃ r, sortPaths e (p :: l) "flip".toList = .ok (pathBackwards p :: r) := by
  obtain ⟨r, hr, hlen, hget⟩ := C28_flip_partial e (p :: l) (by simp) hl hs
  have h0 := hget 0 (by simp) (endOf p) (by simp)
  cases r with
  | nil => simp at hlen
  | cons a r =>
    simp only [List.getElem_cons_zero] at h0
    rw [if_pos] at h0
    · exact ⟨r, by rw [hr, h0]⟩
    · have : eucl (endOf p) (endOf p) = 0 := by simp [eucl]
      rw [this]
      exact eucl_pos (fun h => hopen h.symm)

/-- **C28** is refuted for Bezier curves: the reversed curve of a path from (0, 0) to (3, 0) ends at the first control point
(1, 1), not at the start (0, 0). -/
theorem C28_refuted_bezier :
    (flipPaths [[(⟨.bez ⟨⟨0, 0⟩, ⟨1, 1⟩, ⟨2, 1⟩, ⟨3, 0⟩⟩, {}⟩ : Seg ℚ)]]).map
      (fun r => r.map fun p => p.map fun s => (s.p1, s.p2)) = .ok [[(⟨3, 0⟩, ⟨1, 1⟩)]] := by decide +kernel

/-- Non-vacuity: three open paths; the first is turned round, so is the third. -/
example : sortPaths envQ [lineQ 0 0 10 0, lineQ 0 1 10 1, lineQ 0 2 10 2] "flip".toList
    = .ok [lineQ 10 0 0 0, lineQ 0 1 10 1, lineQ 10 2 0 2] := by decide +kernel

/-! ## C29 -/

section
variable {K : Type} [PyTrig K]

theorem mapM_length {α β : Type} (f : α → Except PyErr β) (l : List α) (r : List β) (h : l.mapM f = .ok r) :
    r.length = l.length := by
  induction l generalizing r with
  | nil => cases h; rfl
  | cons a l ih =>
    rw [List.mapM_cons] at h
    cases hf : f a with
    | error er => rw [hf] at h; cases h
    | ok b =>
      cases hm : l.mapM f with
      | error er => rw [hf, hm] at h; cases h
      | ok bs =>
        rw [hf, hm] at h
        cases h
        simp [ih bs hm]

theorem sortInsert_perm' {α : Type} (lt : α → α → Bool) (a : α) (l : List α) : (sortInsert lt a l).Perm (a :: l) := by
  induction l with
  | nil => exact List.Perm.refl _
  | cons b l ih =>
    unfold sortInsert
    split
    · exact (ih.cons b).trans (List.Perm.swap a b l)
    · exact List.Perm.refl _

theorem pySort_perm' {α : Type} (lt : α → α → Bool) (l : List α) : (pySort lt l).Perm l := by
  induction l with
  | nil => exact List.Perm.refl _
  | cons a l ih => exact (sortInsert_perm' lt a _).trans (ih.cons a)

theorem sortByStart_perm (key : P K → K × K) (rev : Bool) (l r : List (Path K))
    (h : sortByStart key rev l = .ok r) : r.Perm l := by
  unfold sortByStart at h
  simp only [bind, Except.bind] at h
  cases hm : l.mapM (fun p => (do let q ← startPt p; pure (key q, p) : Except PyErr ((K × K) × Path K))) with
  | error er => simp only [bind, Except.bind] at hm; rw [hm] at h; cases h
  | ok keyed =>
    have hm2 := hm
    simp only [bind, Except.bind] at hm2
    rw [hm2] at h
    cases h
    refine ((pySort_perm' _ keyed).map _).trans ?_
    clear hm2
    have : keyed.map (·.2) = l := by
      induction l generalizing keyed with
      | nil => cases hm; rfl
      | cons a l ih =>
        rw [List.mapM_cons] at hm
        cases hs : startPt a with
        | error er => rw [hs] at hm; cases hm
        | ok q =>
          rw [hs] at hm
          cases hm' : l.mapM (fun p => (do let q ← startPt p; pure (key q, p) : Except PyErr ((K × K) × Path K))) with
          | error er => rw [hm'] at hm; cases hm
          | ok bs =>
            rw [hm'] at hm
            cases hm
            rw [List.map_cons, ih bs hm']
    rw [this]

theorem bandLoop_spec (bw : K) (rest : List (Path K)) : ∀ (band : Nat) (bmax : K) (even : Bool) (batch out : List (Path K)),
    bandLoop bw band bmax even batch rest = .ok out → batch ++ rest ≠ [] →
    ∃ lost, lost ≠ [] ∧ (batch ++ rest).Perm (out ++ lost) := by
  induction rest with
  | nil =>
    intro band bmax even batch out h hne
    unfold bandLoop at h
    cases h
    refine ⟨batch, by simpa using hne, ?_⟩
    simp
  | cons p rest ih =>
    intro band bmax even batch out h hne
    unfold bandLoop at h
    split at h
    · cases h
    · split at h
      · obtain ⟨lost, h1, h2⟩ := ih _ _ _ _ _ h (by simp)
        exact ⟨lost, h1, by simpa using h2⟩
      · rename_i s tl _
        simp only [bind, Except.bind] at h
        generalize (if band % 2 = 0 then !even else even) = ev at h
        cases hs : sortByStart (fun q : P K => (q.x, zero)) ev batch with
        | error er => rw [hs] at h; cases h
        | ok sorted =>
          rw [hs] at h
          dsimp only at h
          cases ht : bandLoop bw (band + 1) (bmax +. bw) ev [s :: tl] rest with
          | error er => rw [ht] at h; cases h
          | ok tlo =>
            rw [ht] at h
            cases h
            obtain ⟨lost, h1, h2⟩ := ih _ _ _ _ _ ht (by simp)
            refine ⟨lost, h1, ?_⟩
            have h3 := sortByStart_perm _ _ _ _ hs
            rw [List.append_assoc]
            exact (h3.symm.append h2)

/-- **C29**, the part that holds: whatever `sort_paths(…, 'optimize')` returns consists of input paths, none twice, each
unchanged or reversed.  Missing: completeness, which is false (`C29_refuted_always_loses`). -/
theorem C29_no_invention_partial (e : Env K) (l r : List (Path K)) (h : sortPaths e l "optimize".toList = .ok r) :
    ∃ kept lost, l.Perm (kept ++ lost) ∧ lost ≠ [] ∧ List.Forall₂ (fun a b => b = a ∨ b = pathReversed a) kept r := by
  have n1 : "optimize".toList ≠ "flip".toList := by decide
  unfold sortPaths at h
  rw [if_neg n1, if_pos rfl] at h
  unfold sortOptimize at h
  split at h
  · cases h
  · cases h
  · rename_i s tl hmid
    simp only [bind, Except.bind] at h
    cases hs : sortByStart (fun q : P K => (q.y, q.x)) false l with
    | error er => rw [hs] at h; cases h
    | ok sorted =>
      rw [hs] at h
      dsimp only at h
      cases hb : bandLoop (s.length e *. lit 15 1) 1 (s.length e *. lit 15 1) false [] sorted with
      | error er => rw [hb] at h; cases h
      | ok new =>
        rw [hb] at h
        dsimp only at h
        have hp := sortByStart_perm _ _ _ _ hs
        have hne : l ≠ [] := by rintro rfl; simp at hmid
        have hne' : sorted ≠ [] := by
          intro h0
          rw [h0] at hp
          exact hne (List.Perm.nil_eq hp).symm
        obtain ⟨lost, h1, h2⟩ := bandLoop_spec _ _ _ _ _ _ _ hb (by simpa using hne')
        refine ⟨new, lost, hp.symm.trans (by simpa using h2), h1, ?_⟩
        unfold flipPaths at h
        split at h
        · cases h
        · split at h
          · exact (flipLoop_spec _ _ _ h).forall₂
          · cases h

/-- **C29** is refuted for every input: `sort_paths(…, 'optimize')` either raises or returns strictly fewer paths than it
was given (the paths of the last band are dropped). -/
theorem C29_refuted_always_loses (e : Env K) (l r : List (Path K)) (h : sortPaths e l "optimize".toList = .ok r) :
    r.length < l.length := by
  obtain ⟨kept, lost, hp, hne, hf⟩ := C29_no_invention_partial e l r h
  rw [hp.length_eq, List.length_append, ← hf.length_eq]
  have := List.length_pos_iff.2 hne
  omega

end

/-- Witness: of three parallel strokes only the first band survives; two strokes in one band raise `IndexError`. -/
theorem C29_refuted_witness :
    sortPaths envQ [lineQ 0 0 1 0, lineQ 0 (1/2) 1 (1/2), lineQ 0 9 1 9] "optimize".toList
      = .ok [lineQ 1 0 0 0, lineQ 0 (1/2) 1 (1/2)] ∧
    sortPaths envQ [lineQ 0 0 1 0, lineQ 0 (1/2) 1 (1/2)] "optimize".toList = .error .indexError := by decide +kernel

end Verif.Cam
