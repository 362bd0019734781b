import Verif.Ext.Props1

/-!
# C128: order, direction and connection of the lines of a grid
-/

set_option linter.unusedSectionVars false

namespace Verif.Ext
open Verif PyFloat PyTrig Geom

/-! ## Specification -/

/-- Specification: the direction of the line of number `i`: against the way it was made if all lines are to be reversed, every second one changed
if the directions are to alternate. -/
def Against (reverse alternate : Bool) (i : Nat) : Prop := (reverse = true ∧ ¬ (alternate = true ∧ i % 2 = 1)) ∨ (reverse = false ∧ alternate = true ∧ i % 2 = 1)

instance (reverse alternate : Bool) (i : Nat) : Decidable (Against reverse alternate i) := by unfold Against; infer_instance

/-- Specification: the same line in the other direction. -/
def opposite (l : Line ℝ) : Line ℝ := ⟨l.p2, l.p1⟩

/-- Specification: the line in the direction in which it is drawn. -/
def directed (reverse alternate : Bool) (i : Nat) (l : Line ℝ) : Line ℝ := if Against reverse alternate i then opposite l else l

/-- Specification: the second line starts where the first one ends, to the tolerance. -/
def Joined (eps : ℝ) (l m : Line ℝ) : Prop := sqDist l.p2 m.p1 < eps ^ 2

/-- Specification: every line starts where the one before it ends. -/
def Continuous (eps : ℝ) (ls : List (Line ℝ)) : Prop := ls.IsChain (Joined eps)

/-- Specification: the lines cut at the places where one does not start where the one before it ends: `paths` are the longest runs. -/
structure LongestRuns (eps : ℝ) (ls : List (Line ℝ)) (paths : List (List (Line ℝ))) : Prop where
  all : paths.flatten = ls
  nonempty : ∀ p ∈ paths, p ≠ []
  continuous : ∀ p ∈ paths, Continuous eps p
  longest : paths.IsChain fun p q => ∀ l m, l ∈ p.getLast? → m ∈ q.head? → ¬ Joined eps l m

/-! ## Direction -/

theorem turned_iff (reverse alternate : Bool) (n : Nat) : turned reverse alternate n = true ↔ Against reverse alternate n := by
  unfold turned Against
  rcases Nat.mod_two_eq_zero_or_one n with h | h <;> cases reverse <;> cases alternate <;> simp [h]

theorem reversedLoop_single (reverse alternate : Bool) (ls : List (Line ℝ)) (n : Nat) :
    reversedLoop false reverse alternate n ls = ls.mapIdx fun i l => directed reverse alternate (n + i) l := by
  induction ls generalizing n with
  | nil => rfl
  | cons l ls ih =>
    rw [reversedLoop, ih, List.mapIdx_cons]
    have e : (fun i l => directed reverse alternate (n + 1 + i) l) = fun i l => directed reverse alternate (n + (i + 1)) l := by
      funext i l; rw [show n + 1 + i = n + (i + 1) by omega]
    rw [e]
    have hd : directed reverse alternate (n + 0) l = if turned reverse alternate n = true then l.reversed else l := by
      unfold directed
      rw [Nat.add_zero]
      simp only [turned_iff]
      rfl
    rw [hd]
    cases turned reverse alternate n <;> rfl

/-- **C128**, directions: without doubling, the lines are drawn in the same order, each once, in the direction asked for. -/
theorem C128_directions (reverse alternate : Bool) (ls : List (Line ℝ)) :
    insertReversed false reverse alternate ls = ls.mapIdx fun i l => directed reverse alternate i l := by
  unfold insertReversed
  split
  · rename_i h
    have hr : reverse = false ∧ alternate = false := by cases reverse <;> cases alternate <;> simp_all
    obtain ⟨rfl, rfl⟩ := hr
    apply List.ext_getElem
    · simp
    · intro i h1 h2
      simp [directed, Against]
  · rw [reversedLoop_single]
    simp

/-- **C128**, doubled lines: every line is drawn in the direction asked for and then back. -/
theorem C128_doubled (reverse alternate : Bool) (ls : List (Line ℝ)) :
    insertReversed true reverse alternate ls =
      (ls.mapIdx fun i l => [directed reverse alternate i l, opposite (directed reverse alternate i l)]).flatten := by
  have key : ∀ (ls : List (Line ℝ)) (n : Nat), reversedLoop true reverse alternate n ls =
      (ls.mapIdx fun i l => [directed reverse alternate (n + i) l, opposite (directed reverse alternate (n + i) l)]).flatten := by
    intro ls
    induction ls with
    | nil => intro n; rfl
    | cons l ls ih =>
      intro n
      rw [reversedLoop, ih, List.mapIdx_cons, List.flatten_cons]
      have e : (fun i l => [directed reverse alternate (n + 1 + i) l, opposite (directed reverse alternate (n + 1 + i) l)]) =
          fun i l => [directed reverse alternate (n + (i + 1)) l, opposite (directed reverse alternate (n + (i + 1)) l)] := by
        funext i l; rw [show n + 1 + i = n + (i + 1) by omega]
      rw [e]
      have hd : directed reverse alternate (n + 0) l = if turned reverse alternate n = true then l.reversed else l := by
        unfold directed
        rw [Nat.add_zero]
        simp only [turned_iff]
        rfl
      rw [hd]
      cases turned reverse alternate n <;> rfl
  unfold insertReversed
  rw [if_neg (by simp), key]
  simp

/-! ## Connection -/

theorem ne_iff (eps : ℝ) (p q : P ℝ) : p.ne eps q = true ↔ ¬ sqDist p q < eps ^ 2 := by
  rw [← eq_iff]
  unfold P.ne P.eq
  cases P.almostEq eps p q <;> simp

theorem sqDist_self (p : P ℝ) : sqDist p p = 0 := by unfold sqDist; ring

/-- Specification: lines with connections between them: nothing is put between two lines that meet, and a straight line from the end of one to the start of
the next between two that do not. -/
inductive Bridged (eps : ℝ) : List (Line ℝ) → List (Line ℝ) → Prop
  | nil : Bridged eps [] []
  | one (l : Line ℝ) : Bridged eps [l] [l]
  | joined (l m : Line ℝ) (ls r : List (Line ℝ)) (h : Joined eps l m) (hr : Bridged eps (m :: ls) r) : Bridged eps (l :: m :: ls) (l :: r)
  | gap (l m : Line ℝ) (ls r : List (Line ℝ)) (h : ¬ Joined eps l m) (hr : Bridged eps (m :: ls) r) : Bridged eps (l :: m :: ls) (l :: ⟨l.p2, m.p1⟩ :: r)

theorem connector_some (eps : ℝ) (ls : List (Line ℝ)) (p l : Line ℝ) :
    connectorLoop eps (some p) (l :: ls) = (if p.p2.ne eps l.p1 = true then [⟨p.p2, l.p1⟩] else []) ++ l :: connectorLoop eps (some l) ls := rfl

/-- **C128**, connections: exactly the gaps between lines that do not meet are bridged by a straight line from the end of one to the start of the next;
the lines themselves stay as they are, in the same order, and the result is continuous. -/
theorem C128_connected (eps : ℝ) (heps : 0 < eps) (ls : List (Line ℝ)) :
    Bridged eps ls (insertConnectors eps ls) ∧ Continuous eps (insertConnectors eps ls) := by
  cases ls with
  | nil => exact ⟨.nil, .nil⟩
  | cons l ls =>
    have e : insertConnectors eps (l :: ls) = l :: connectorLoop eps (some l) ls := rfl
    rw [e]
    induction ls generalizing l with
    | nil => exact ⟨.one l, .singleton l⟩
    | cons m ls ih =>
      obtain ⟨h1, h2⟩ := ih m rfl
      rw [connector_some]
      by_cases hj : Joined eps l m
      · have : ¬ l.p2.ne eps m.p1 = true := by rw [ne_iff]; exact not_not.2 hj
        rw [if_neg this, List.nil_append]
        exact ⟨.joined l m ls _ hj h1, .cons_cons hj h2⟩
      · have : l.p2.ne eps m.p1 = true := by rw [ne_iff]; exact hj
        rw [if_pos this]
        refine ⟨.gap l m ls _ hj h1, .cons_cons ?_ (.cons_cons ?_ h2)⟩
        · unfold Joined; rw [sqDist_self]; positivity
        · unfold Joined; rw [sqDist_self]; positivity

/-! ## Paths -/

theorem chain_snoc {eps : ℝ} {path : List (Line ℝ)} {last l : Line ℝ} (h : Continuous eps path) (hl : path.getLast? = some last) (hj : Joined eps last l) :
    Continuous eps (path ++ [l]) := by
  unfold Continuous
  rw [List.isChain_append]
  refine ⟨h, .singleton l, ?_⟩
  intro a ha b hb
  rw [hl] at ha
  simp only [Option.mem_def, Option.some.injEq, List.head?_cons] at ha hb
  rw [← ha, ← hb]; exact hj

theorem pathLoop_spec (eps : ℝ) (ls : List (Line ℝ)) : ∀ (path : List (Line ℝ)) (last : Line ℝ), path.getLast? = some last → Continuous eps path →
    LongestRuns eps (path ++ ls) (pathLoop eps path last ls) ∧ ∃ p rest, pathLoop eps path last ls = p :: rest ∧ ∃ t, p = path ++ t := by
  induction ls with
  | nil =>
    intro path last hl hc
    have hne : path ≠ [] := by rintro rfl; cases hl
    refine ⟨⟨by simp [pathLoop], ?_, ?_, ?_⟩, path, [], rfl, [], by simp⟩
    · intro p hp; rw [pathLoop, List.mem_singleton] at hp; rw [hp]; exact hne
    · intro p hp; rw [pathLoop, List.mem_singleton] at hp; rw [hp]; exact hc
    · exact .singleton _
  | cons l ls ih =>
    intro path last hl hc
    have hne : path ≠ [] := by rintro rfl; cases hl
    rw [pathLoop]
    by_cases hj : Joined eps last l
    · have : last.p2.eq eps l.p1 = true := (eq_iff _ _ _).2 hj
      rw [if_pos this]
      obtain ⟨h1, p, rest, h2, t, h3⟩ := ih (path ++ [l]) l (by simp) (chain_snoc hc hl hj)
      refine ⟨?_, p, rest, h2, l :: t, by rw [h3]; simp⟩
      rw [show path ++ l :: ls = path ++ [l] ++ ls by simp]
      exact h1
    · have : ¬ last.p2.eq eps l.p1 = true := fun h => hj ((eq_iff _ _ _).1 h)
      rw [if_neg this]
      obtain ⟨h1, p, rest, h2, t, h3⟩ := ih [l] l rfl (.singleton l)
      refine ⟨⟨?_, ?_, ?_, ?_⟩, path, _, rfl, [], by simp⟩
      · rw [List.flatten_cons, h1.all]; rfl
      · intro q hq
        rcases List.mem_cons.1 hq with rfl | hq
        · exact hne
        · exact h1.nonempty q hq
      · intro q hq
        rcases List.mem_cons.1 hq with rfl | hq
        · exact hc
        · exact h1.continuous q hq
      · rw [h2]
        have h4 := h1.longest
        rw [h2] at h4
        refine .cons_cons ?_ h4
        intro a b ha hb
        rw [hl] at ha
        rw [h3] at hb
        simp only [Option.mem_def, Option.some.injEq, List.cons_append, List.head?_cons] at ha hb
        rw [← ha, ← hb]; exact hj

/-- **C128**, paths: the lines are put into paths that are the longest continuous runs of the list: no line is lost or moved. -/
theorem C128_paths (eps : ℝ) (ls : List (Line ℝ)) : LongestRuns eps ls (connectedPaths eps ls) := by
  cases ls with
  | nil => exact ⟨rfl, by simp [connectedPaths], by simp [connectedPaths], by simp [connectedPaths]⟩
  | cons l ls => exact (pathLoop_spec eps ls [l] l rfl (.singleton l)).1

theorem pathLoop_one (eps : ℝ) (ls : List (Line ℝ)) : ∀ (path : List (Line ℝ)) (last : Line ℝ), (last :: ls).IsChain (Joined eps) →
    pathLoop eps path last ls = [path ++ ls] := by
  induction ls with
  | nil => intro path last _; simp [pathLoop]
  | cons l ls ih =>
    intro path last h
    rw [List.isChain_cons_cons] at h
    rw [pathLoop, if_pos ((eq_iff _ _ _).2 h.1), ih _ _ h.2]
    simp

/-- **C128**, connected lines are a single path: with the option to connect, all lines of a set are drawn as one path, unless horizontal and
vertical lines alternate. -/
theorem C128_single_path (eps : ℝ) (heps : 0 < eps) (o : OrderArgs) (ho : o.connect = true) (ls : List (Line ℝ)) (hne : ls ≠ []) :
    ∃ p, orderedPaths eps o false ls = [p] ∧ Continuous eps p := by
  unfold orderedPaths
  dsimp only
  generalize hls : insertReversed o.doubled o.reverse o.alternate (if o.reverseOrder = true then ls.reverse else ls) = qs
  have hq : qs ≠ [] := by
    rintro rfl
    have h1 : (if o.reverseOrder = true then ls.reverse else ls) ≠ [] := by
      split
      · simpa using hne
      · exact hne
    cases h2 : (if o.reverseOrder = true then ls.reverse else ls) with
    | nil => exact h1 h2
    | cons a l =>
      rw [h2] at hls
      unfold insertReversed at hls
      split at hls
      · cases hls
      · rw [reversedLoop] at hls
        split at hls <;> cases hls
  rw [if_pos (by simp [ho])]
  have hc := (C128_connected eps heps qs).2
  cases h : insertConnectors eps qs with
  | nil =>
    cases qs with
    | nil => exact absurd rfl hq
    | cons q qs => cases h
  | cons r rs =>
    rw [h] at hc
    refine ⟨r :: rs, ?_, hc⟩
    rw [connectedPaths, pathLoop_one eps rs [r] r hc]
    rfl

/-- Specification: horizontal and vertical paths in turn, as long as there are both; then what is left. -/
inductive Interleaved {α : Type} : List α → List α → List α → Prop
  | left (hs : List α) : Interleaved hs [] hs
  | right (vs : List α) : Interleaved [] vs vs
  | both (h v : α) (hs vs r : List α) (hr : Interleaved hs vs r) : Interleaved (h :: hs) (v :: vs) (h :: v :: r)

/-- **C128**, alternating horizontal and vertical lines: they are drawn in turn, each once. -/
theorem C128_alternated {α : Type} (hs vs : List α) : Interleaved hs vs (alternated hs vs) ∧ (alternated hs vs).Perm (hs ++ vs) := by
  induction hs generalizing vs with
  | nil => exact ⟨by cases vs <;> exact .right _, by cases vs <;> simp [alternated]⟩
  | cons h hs ih =>
    cases vs with
    | nil => exact ⟨.left _, by simp [alternated]⟩
    | cons v vs =>
      obtain ⟨h1, h2⟩ := ih vs
      refine ⟨.both h v hs vs _ h1, ?_⟩
      rw [alternated, List.cons_append]
      refine .cons _ ?_
      exact (h2.cons v).trans List.perm_middle.symm

/-- Non-vacuity: three lines, alternating and connected, are drawn as one path that goes back and forth. -/
example : orderedPaths (1 / 1000000 : ℚ) { reverseOrder := false, doubled := false, alternate := true, connect := true } false
    [⟨⟨0, 0⟩, ⟨10, 0⟩⟩, ⟨⟨0, 4⟩, ⟨10, 4⟩⟩, ⟨⟨0, 8⟩, ⟨10, 8⟩⟩] =
    [[⟨⟨0, 0⟩, ⟨10, 0⟩⟩, ⟨⟨10, 0⟩, ⟨10, 4⟩⟩, ⟨⟨10, 4⟩, ⟨0, 4⟩⟩, ⟨⟨0, 4⟩, ⟨0, 8⟩⟩, ⟨⟨0, 8⟩, ⟨10, 8⟩⟩]] := by
  decide +kernel

end Verif.Ext
