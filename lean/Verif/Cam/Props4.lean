import Verif.Cam.Props3
import Verif.Geom.Props1
import Mathlib.Data.Prod.Lex
import Mathlib.Order.Lex

/-!
# C27–C29: sorting the tool paths
-/

set_option linter.unusedSectionVars false

namespace Verif.Cam
open Verif PyFloat PyTrig Geom GCode

/-! ## Stable sorting -/

section
variable {α κ : Type} [LinearOrder κ] (key : α → κ)

/-- The comparison by key. -/
def keyLt (a b : α) : Bool := decide (key a < key b)

theorem sortInsert_perm (a : α) (l : List α) : (sortInsert (keyLt key) a l).Perm (a :: l) := by
  induction l with
  | nil => exact List.Perm.refl _
  | cons b l ih =>
    unfold sortInsert
    split
    · exact (ih.cons b).trans (List.Perm.swap a b l)
    · exact List.Perm.refl _

theorem pySort_perm (l : List α) : (pySort (keyLt key) l).Perm l := by
  induction l with
  | nil => exact List.Perm.refl _
  | cons a l ih => exact (sortInsert_perm key a _).trans (ih.cons a)

theorem sortInsert_sorted (a : α) (l : List α) (h : l.Pairwise fun x y => key x ≤ key y) :
    (sortInsert (keyLt key) a l).Pairwise fun x y => key x ≤ key y := by
  induction l with
  | nil => simp [sortInsert]
  | cons b l ih =>
    rw [List.pairwise_cons] at h
    unfold sortInsert
    split
    · rename_i hlt
      have hlt : key b < key a := by simpa [keyLt] using hlt
      rw [List.pairwise_cons]
      refine ⟨?_, ih h.2⟩
      intro x hx
      rcases List.mem_cons.1 ((sortInsert_perm key a l).mem_iff.1 hx) with rfl | hx
      · exact hlt.le
      · exact h.1 x hx
    · rename_i hlt
      have hle : key a ≤ key b := by simpa [keyLt] using hlt
      rw [List.pairwise_cons]
      refine ⟨?_, List.pairwise_cons.2 h⟩
      intro x hx
      rcases List.mem_cons.1 hx with rfl | hx
      · exact hle
      · exact hle.trans (h.1 x hx)

theorem pySort_sorted (l : List α) : (pySort (keyLt key) l).Pairwise fun x y => key x ≤ key y := by
  induction l with
  | nil => exact List.Pairwise.nil
  | cons a l ih => exact sortInsert_sorted key a _ ih

theorem sortInsert_filter (k : κ) (a : α) (l : List α) :
    (sortInsert (keyLt key) a l).filter (fun x => key x = k) = (a :: l).filter (fun x => key x = k) := by
  induction l with
  | nil => rfl
  | cons b l ih =>
    unfold sortInsert
    split
    · rename_i hlt
      have hlt : key b < key a := by simpa [keyLt] using hlt
      by_cases hb : key b = k
      · have ha : ¬ key a = k := fun ha => by rw [hb, ha] at hlt; exact lt_irrefl _ hlt
        rw [List.filter_cons_of_pos (by simpa using hb), ih, List.filter_cons_of_neg (by simpa using ha),
          List.filter_cons_of_neg (by simpa using ha), List.filter_cons_of_pos (by simpa using hb)]
      · rw [List.filter_cons_of_neg (by simpa using hb), ih]
        by_cases ha : key a = k
        · rw [List.filter_cons_of_pos (by simpa using ha), List.filter_cons_of_pos (by simpa using ha),
            List.filter_cons_of_neg (by simpa using hb)]
        · rw [List.filter_cons_of_neg (by simpa using ha), List.filter_cons_of_neg (by simpa using ha),
            List.filter_cons_of_neg (by simpa using hb)]
    · rfl

theorem pySort_filter (k : κ) (l : List α) :
    (pySort (keyLt key) l).filter (fun x => key x = k) = l.filter (fun x => key x = k) := by
  induction l with
  | nil => rfl
  | cons a l ih =>
    show (sortInsert (keyLt key) a (pySort (keyLt key) l)).filter _ = _
    rw [sortInsert_filter]
    by_cases ha : key a = k
    · rw [List.filter_cons_of_pos (by simpa using ha), List.filter_cons_of_pos (by simpa using ha), ih]
    · rw [List.filter_cons_of_neg (by simpa using ha), List.filter_cons_of_neg (by simpa using ha), ih]

end

/-! ## C27 -/

/-- Specification: the point a non-empty path starts at. -/
noncomputable def startOf (p : Path ℝ) : P ℝ := (p.head?.map Seg.p1).getD ⟨0, 0⟩

/-- Specification: the order each sort method promises between a path starting at `a` and a later one starting at `b`. -/
def InOrder (method : Str) (a b : P ℝ) : Prop :=
  (method = "x+".toList ∧ (a.x < b.x ∨ a.x = b.x ∧ a.y ≤ b.y)) ∨
  (method = "x-".toList ∧ (b.x < a.x ∨ b.x = a.x ∧ b.y ≤ a.y)) ∨
  (method = "y+".toList ∧ (a.y < b.y ∨ a.y = b.y ∧ a.x ≤ b.x)) ∨
  (method = "y-".toList ∧ (b.y < a.y ∨ b.y = a.y ∧ b.x ≤ a.x))

theorem startPt_ok (p : Path ℝ) (h : p ≠ []) : startPt p = .ok (startOf p) := by
  cases p with
  | nil => exact absurd rfl h
  | cons s p => rfl

theorem lexLt_iff (p q : ℝ × ℝ) : lexLt p q = decide (toLex p < toLex q) := by
  rw [Bool.eq_iff_iff]
  simp only [lexLt, Bool.or_eq_true, Bool.and_eq_true, real_lt, real_beq, decide_eq_true_eq, Prod.Lex.toLex_lt_toLex]

theorem pySort_congr {α : Type} {f g : α → α → Bool} (h : f = g) (l : List α) : pySort f l = pySort g l := by rw [h]

theorem sortByStart_eq (key : P ℝ → ℝ × ℝ) (l : List (Path ℝ)) (hl : ∀ p ∈ l, p ≠ []) (rev : Bool) :
    sortByStart key rev l =
      .ok ((pySort (fun a b => if rev then lexLt b.1 a.1 else lexLt a.1 b.1)
        (l.map fun p => (key (startOf p), p))).map (·.2)) := by
  unfold sortByStart
  rw [mapM_ok _ (fun p => (key (startOf p), p)) l]
  · rfl
  · intro p hp
    rw [startPt_ok p (hl p hp)]
    rfl

theorem sortInsert_map {α β : Type} (f : α → β) (lt : β → β → Bool) (a : α) (l : List α) :
    (sortInsert lt (f a) (l.map f)) = (sortInsert (fun x y => lt (f x) (f y)) a l).map f := by
  induction l with
  | nil => rfl
  | cons b l ih =>
    rw [List.map_cons]
    unfold sortInsert
    split
    · rw [List.map_cons, ih]
    · rfl

theorem pySort_map {α β : Type} (f : α → β) (lt : β → β → Bool) (l : List α) :
    pySort lt (l.map f) = (pySort (fun x y => lt (f x) (f y)) l).map f := by
  induction l with
  | nil => rfl
  | cons a l ih =>
    rw [List.map_cons]
    show sortInsert lt (f a) (pySort lt (l.map f)) = (sortInsert _ a (pySort _ l)).map f
    rw [ih, sortInsert_map]

/-- Ascending: the sort is the stable sort by key. -/
theorem sortByStart_asc (key : P ℝ → ℝ × ℝ) (l : List (Path ℝ)) (hl : ∀ p ∈ l, p ≠ []) :
    sortByStart key false l = .ok (pySort (keyLt fun p => toLex (key (startOf p))) l) := by
  rw [sortByStart_eq key l hl, pySort_map, List.map_map]
  have : (fun x : Path ℝ => x) = ((fun x : (ℝ × ℝ) × Path ℝ => x.2) ∘ fun p => (key (startOf p), p)) := rfl
  rw [← this, List.map_id']
  congr 1
  refine pySort_congr ?_ l
  funext a b
  show lexLt (key (startOf a)) (key (startOf b)) = _
  rw [lexLt_iff]; rfl

/-- Descending: the sort is the stable sort by the reversed key order. -/
theorem sortByStart_desc (key : P ℝ → ℝ × ℝ) (l : List (Path ℝ)) (hl : ∀ p ∈ l, p ≠ []) :
    sortByStart key true l = .ok (pySort (keyLt fun p => OrderDual.toDual (toLex (key (startOf p)))) l) := by
  rw [sortByStart_eq key l hl, pySort_map, List.map_map]
  have : (fun x : Path ℝ => x) = ((fun x : (ℝ × ℝ) × Path ℝ => x.2) ∘ fun p => (key (startOf p), p)) := rfl
  rw [← this, List.map_id']
  congr 1
  refine pySort_congr ?_ l
  funext a b
  show lexLt (key (startOf b)) (key (startOf a)) = _
  rw [lexLt_iff]; rfl

open Classical in
/-- **C27**: `sort_paths` with `'x+'`, `'x-'`, `'y+'` or `'y-'` returns a permutation of the input, ordered by start point as
the method promises, and paths with the same start point stay in input order. -/
theorem C27_directional_sort (e : Env ℝ) (l : List (Path ℝ)) (hl : ∀ p ∈ l, p ≠ []) (m : Str)
    (hm : m ∈ ["x+".toList, "x-".toList, "y+".toList, "y-".toList]) :
    ∃ r, sortPaths e l m = .ok r ∧ r.Perm l ∧ r.Pairwise (fun a b => InOrder m (startOf a) (startOf b)) ∧
      ∀ q : P ℝ, r.filter (fun p => startOf p = q) = l.filter (fun p => startOf p = q) := by
  have hfilt : ∀ {κ : Type} [LinearOrder κ] (key : P ℝ → κ), Function.Injective key → ∀ q : P ℝ,
      (pySort (keyLt fun p => key (startOf p)) l).filter (fun p => startOf p = q)
        = l.filter (fun p => startOf p = q) := by
    intro κ _ key hinj q
    have := pySort_filter (fun p => key (startOf p)) (key q) l
    have h2 : (fun p : Path ℝ => decide (key (startOf p) = key q)) = fun p => decide (startOf p = q) := by
      funext p
      by_cases h : startOf p = q
      · simp [h]
      · have h' : ¬ key (startOf p) = key q := fun h' => h (hinj h')
        simp [h, h']
    rw [h2] at this
    exact this
  have inj1 : Function.Injective fun q : P ℝ => toLex (q.x, q.y) := by
    rintro ⟨a, b⟩ ⟨c, d⟩ h
    have := toLex.injective h
    simp at this; simp [this]
  have inj2 : Function.Injective fun q : P ℝ => toLex (q.y, q.x) := by
    rintro ⟨a, b⟩ ⟨c, d⟩ h
    have := toLex.injective h
    simp at this; simp [this]
  have n1 : "x+".toList ≠ "flip".toList ∧ "x+".toList ≠ "optimize".toList ∧ "x+".toList ≠ "y+".toList
    ∧ "x+".toList ≠ "y-".toList := by decide
  have n2 : "x-".toList ≠ "flip".toList ∧ "x-".toList ≠ "optimize".toList ∧ "x-".toList ≠ "y+".toList
    ∧ "x-".toList ≠ "y-".toList ∧ "x-".toList ≠ "x+".toList := by decide
  have n3 : "y+".toList ≠ "flip".toList ∧ "y+".toList ≠ "optimize".toList := by decide
  have n4 : "y-".toList ≠ "flip".toList ∧ "y-".toList ≠ "optimize".toList ∧ "y-".toList ≠ "y+".toList := by decide
  simp only [List.mem_cons, List.not_mem_nil, or_false] at hm
  unfold sortPaths
  rcases hm with rfl | rfl | rfl | rfl
  · rw [if_neg n1.1, if_neg n1.2.1, if_neg n1.2.2.1, if_neg n1.2.2.2, if_pos rfl, sortByStart_asc _ l hl]
    refine ⟨_, rfl, pySort_perm _ _, ?_, hfilt _ inj1⟩
    refine (pySort_sorted _ l).imp ?_
    intro a b h
    rw [Prod.Lex.toLex_le_toLex] at h
    exact Or.inl ⟨rfl, h⟩
  · rw [if_neg n2.1, if_neg n2.2.1, if_neg n2.2.2.1, if_neg n2.2.2.2.1, if_neg n2.2.2.2.2, if_pos rfl,
      sortByStart_desc _ l hl]
    refine ⟨_, rfl, pySort_perm _ _, ?_, hfilt _ (OrderDual.toDual.injective.comp inj1)⟩
    refine (pySort_sorted _ l).imp ?_
    intro a b h
    rw [OrderDual.toDual_le_toDual, Prod.Lex.toLex_le_toLex] at h
    exact Or.inr (Or.inl ⟨rfl, h⟩)
  · rw [if_neg n3.1, if_neg n3.2, if_pos rfl, sortByStart_asc _ l hl]
    refine ⟨_, rfl, pySort_perm _ _, ?_, hfilt _ inj2⟩
    refine (pySort_sorted _ l).imp ?_
    intro a b h
    rw [Prod.Lex.toLex_le_toLex] at h
    exact Or.inr (Or.inr (Or.inl ⟨rfl, h⟩))
  · rw [if_neg n4.1, if_neg n4.2.1, if_neg n4.2.2, if_pos rfl, sortByStart_desc _ l hl]
    refine ⟨_, rfl, pySort_perm _ _, ?_, hfilt _ (OrderDual.toDual.injective.comp inj2)⟩
    refine (pySort_sorted _ l).imp ?_
    intro a b h
    rw [OrderDual.toDual_le_toDual, Prod.Lex.toLex_le_toLex] at h
    exact Or.inr (Or.inr (Or.inr ⟨rfl, h⟩))

/-- An empty path in the list makes every directional sort raise `IndexError`. -/
theorem C27_empty_path_raises (e : Env ℝ) (l : List (Path ℝ)) (m : Str)
    (hm : m ∈ ["x+".toList, "x-".toList, "y+".toList, "y-".toList]) (h : [] ∈ l) :
    sortPaths e l m = .error .indexError := by
  have key : ∀ (k : P ℝ → ℝ × ℝ) (rev : Bool), sortByStart k rev l = .error .indexError := by
    intro k rev
    unfold sortByStart
    have : (l.mapM fun p => (do let q ← startPt p; pure (k q, p) : Except PyErr ((ℝ × ℝ) × Path ℝ)))
        = .error .indexError := by
      induction l with
      | nil => simp at h
      | cons a l ih =>
        rw [List.mapM_cons]
        cases a with
        | nil => rfl
        | cons s p =>
          rw [ih (by simpa using h)]
          rfl
    rw [this]; rfl
  simp only [List.mem_cons, List.not_mem_nil, or_false] at hm
  unfold sortPaths
  rcases hm with rfl | rfl | rfl | rfl <;> repeat' (first | exact key _ _ | split)
  all_goals rename_i h1 h2
  all_goals exact absurd h1 (by decide)

/-- A one-segment path over ℚ. -/
def lineQ (a b c d : ℚ) : Path ℚ := [⟨.line ⟨⟨a, b⟩, ⟨c, d⟩⟩, {}⟩]

/-- Non-vacuity: a list of non-empty paths that is really reordered, with two paths of the same start point that keep their
order in both directions. -/
example :
    sortPaths envQ [lineQ 1 2 0 0, lineQ 3 1 0 0, lineQ 1 2 5 5, lineQ 2 7 0 0] "x+".toList
      = .ok [lineQ 1 2 0 0, lineQ 1 2 5 5, lineQ 2 7 0 0, lineQ 3 1 0 0] ∧
    sortPaths envQ [lineQ 1 2 0 0, lineQ 3 1 0 0, lineQ 1 2 5 5, lineQ 2 7 0 0] "x-".toList
      = .ok [lineQ 3 1 0 0, lineQ 2 7 0 0, lineQ 1 2 0 0, lineQ 1 2 5 5] ∧
    sortPaths envQ [lineQ 1 2 0 0, lineQ 3 1 0 0, lineQ 1 2 5 5, lineQ 2 7 0 0] "y+".toList
      = .ok [lineQ 3 1 0 0, lineQ 1 2 0 0, lineQ 1 2 5 5, lineQ 2 7 0 0] := by decide +kernel

end Verif.Cam
