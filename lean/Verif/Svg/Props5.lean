import Verif.Svg.Props4

/-!
# C84: exploding a path into its segments
-/

set_option linter.unusedSectionVars false

namespace Verif.Svg
open Verif PyFloat PyTrig Geom

section
variable {K : Type} [PyFloat K]

/-! ## Specification -/

/-- Specification: numbers are printed as numbers (all finite floats are): `nS`, `nF`, `nI` are what `str(float)`, `%f` and
`str(int)` print. -/
structure Prints (te : TextEnv K) (nS nF nI : K → Numeral) : Prop where
  strF : ∀ v, te.strF v = (nS v).text ∧ (nS v).Valid
  fmtF : ∀ v, te.fmtF v = (nF v).text ∧ (nF v).Valid
  strI : ∀ v, te.strI v = (nI v).text ∧ (nI v).Valid ∧ (nI v).IsInt

/-- Specification: the numbers printed for the parameters of a command. -/
def printed (nS nI : K → Numeral) (c : Char) (a : List K) : List Numeral :=
  match c, a with
  | 'A', [rx, ry, rot, large, sweep, x, y] => [nS rx, nS ry, nS rot, nI large, nI sweep, nS x, nS y]
  | _, a => a.map nS

/-- Specification: the drawing commands of a path, each with the end point of the command before it. -/
def segments (out : List (Char × List K)) : List (P K × Char × List K) :=
  ((out.zip out.tail).filter fun x => x.2.1 ≠ 'M').map fun x => (endPoint x.1.2, x.2.1, x.2.2)

/-! ## Lemmas -/

theorem spells_joinSp (ns : List Numeral) (h : ∀ n ∈ ns, n.Valid) : Spells (joinSp (ns.map Numeral.text)) (ns.map Lex.num) := by
  induction ns with
  | nil => exact Spells.nil
  | cons n ns ih =>
    have i := ih fun m hm => h m (by simp [hm])
    cases ns with
    | nil =>
      have := Spells.num n [] [] (h n (by simp)) (Or.inl rfl) Spells.nil
      simpa [joinSp] using this
    | cons m ns =>
      refine Spells.num n (' ' :: joinSp ((m :: ns).map Numeral.text)) _ (h n (by simp)) ?_ (Spells.sep ' ' _ _ (by decide) i)
      exact Or.inr ⟨' ', _, rfl, Or.inl (by decide)⟩

theorem strs_printed {te : TextEnv K} {nS nF nI : K → Numeral} (h : Prints te nS nF nI) (c : Char) (a : List K) :
    te.strs c a = (printed nS nI c a).map Numeral.text := by
  unfold TextEnv.strs printed
  split
  · simp [(h.strF _).1, (h.strI _).1]
  · simp only [List.map_map]
    congr 1
    funext v
    exact (h.strF v).1

theorem printed_valid {te : TextEnv K} {nS nF nI : K → Numeral} (h : Prints te nS nF nI) (c : Char) (a : List K) :
    (∀ n ∈ printed nS nI c a, n.Valid) ∧ (printed nS nI c a).length = a.length := by
  unfold printed
  split
  · refine ⟨?_, rfl⟩
    intro n hn
    simp only [List.mem_cons, List.not_mem_nil, or_false] at hn
    rcases hn with rfl | rfl | rfl | rfl | rfl | rfl | rfl
    all_goals first | exact (h.strF _).2 | exact (h.strI _).2.1
  · refine ⟨?_, by simp⟩
    intro n hn
    obtain ⟨v, -, rfl⟩ := List.mem_map.1 hn
    exact (h.strF v).2

theorem piece_parse (env : NumEnv K) {te : TextEnv K} {nS nF nI : K → Numeral} (h : Prints te nS nF nI) (p : P K) {c : Char} {a : List K}
    (hc : Canonical (c, a)) :
    parsePath env (te.piece p c a) =
      ([('M', [(nF p.x).value env, (nF p.y).value env]), (c, argValues env c (printed nS nI c a))], none) := by
  obtain ⟨hv, hl⟩ := printed_valid h c a
  have hw1 : WrittenCmd ('M', [nF p.x, nF p.y]) := by
    refine ⟨rfl, ?_, fun h => by cases h⟩
    intro n hn
    simp only [List.mem_cons, List.not_mem_nil, or_false] at hn
    rcases hn with rfl | rfl <;> exact (h.fmtF _).2
  have hw2 : WrittenCmd (c, printed nS nI c a) := by
    refine ⟨?_, hv, ?_⟩
    · show _ = some (printed nS nI c a).length
      rw [hl]; exact hc
    · intro hA i n hn hi
      have hA : c = 'A' := hA
      subst hA
      have hlen : a.length = 7 := (Option.some.inj (show some 7 = some a.length from hc)).symm
      match a, hlen with
      | [x1, x2, x3, x4, x5, x6, x7], _ =>
        rcases hi with rfl | rfl
        · have : nI x4 = n := Option.some.inj hn
          rw [← this]; exact (h.strI x4).2.2
        · have : nI x5 = n := Option.some.inj hn
          rw [← this]; exact (h.strI x5).2.2
  have hcd : c ∈ cmdLetters := (written_reads env hw2).1
  have hsp : Spells (te.piece p c a) ([('M', [nF p.x, nF p.y]), (c, printed nS nI c a)].flatMap lexOf) := by
    unfold TextEnv.piece
    rw [strs_printed h, (h.fmtF p.x).1, (h.fmtF p.y).1]
    have hsp : ' ' ∈ separators := by decide
    have s0 := spells_joinSp _ hv
    have s1 := Spells.cmd c _ _ hcd (Spells.sep ' ' _ _ hsp s0)
    have s2 := Spells.num (nF p.y) _ _ (h.fmtF p.y).2 (Or.inr ⟨' ', _, rfl, Or.inl hsp⟩) (Spells.sep ' ' _ _ hsp s1)
    have s3 := Spells.num (nF p.x) _ _ (h.fmtF p.x).2 (Or.inr ⟨' ', _, rfl, Or.inl hsp⟩) (Spells.sep ' ' _ _ hsp s2)
    have s4 := Spells.cmd 'M' _ _ (by decide +kernel) (Spells.sep ' ' _ _ hsp s3)
    simpa [lexOf] using s4
  have := C72_round_trip env [('M', [nF p.x, nF p.y]), (c, printed nS nI c a)]
    (by intro x hx
        simp only [List.mem_cons, List.not_mem_nil, or_false] at hx
        rcases hx with rfl | rfl
        · exact hw1
        · exact hw2)
    (by intro x hx; simp only [List.head?_cons, Option.some.injEq] at hx; rw [← hx]) hsp
  rw [this]
  rfl

theorem explodeLoop_eq (te : TextEnv K) (cs : List (Char × List K)) : ∀ x : Char × List K, (∀ y ∈ cs, Canonical y) →
    explodeLoop te (some (endPoint x.2)) cs = .ok ((segments (x :: cs)).map fun y => te.piece y.1 y.2.1 y.2.2) := by
  induction cs with
  | nil => intro x _; rfl
  | cons y cs ih =>
    intro x hcs
    obtain ⟨c, a⟩ := y
    have i := ih (c, a) fun z hz => hcs z (by simp [hz])
    have hl : last2 a = some (endPoint a) := last2_endPoint (hcs (c, a) (by simp))
    simp only [explodeLoop, hl]
    have i : explodeLoop te (some (endPoint a)) cs = .ok ((segments ((c, a) :: cs)).map fun y => te.piece y.1 y.2.1 y.2.2) := i
    by_cases hM : c = 'M'
    · rw [if_pos hM, i]
      simp [segments, hM]
    · rw [if_neg hM, i]
      simp [segments, hM]

/-- **C84**: `explode_path` raises only if `parse_path` does; otherwise it returns one path per drawing command of the given path,
in the same order, and each returned path is read back as a move to the end point of the command before (to the printed
precision) and that command (to the printed precision). -/
theorem C84_explode (env : NumEnv K) {te : TextEnv K} {nS nF nI : K → Numeral} (h : Prints te nS nF nI) (s : Str) :
    (∀ e, explodePath env te s = .error e ↔ (parsePath env s).2 = some e) ∧
    (∀ ds, explodePath env te s = .ok ds → ds.map (parsePath env) = (segments (parsePath env s).1).map fun y =>
      ([('M', [(nF y.1.x).value env, (nF y.1.y).value env]), (y.2.1, argValues env y.2.1 (printed nS nI y.2.1 y.2.2))], none)) := by
  obtain ⟨h1, h2, -⟩ := C68_parse_partial env s
  have hloop : explodeLoop te none (parsePath env s).1 =
      .ok ((segments (parsePath env s).1).map fun y => te.piece y.1 y.2.1 y.2.2) := by
    cases hp : (parsePath env s).1 with
    | nil => rfl
    | cons x cs =>
      obtain ⟨c, a⟩ := x
      rw [hp] at h1 h2
      have hM : c = 'M' := h2 (c, a) rfl
      have hl : last2 a = some (endPoint a) := last2_endPoint (h1 (c, a) (by simp))
      simp only [explodeLoop, hl, if_pos hM]
      exact explodeLoop_eq te cs (c, a) fun y hy => h1 y (by simp [hy])
  have hcan : ∀ y ∈ segments (parsePath env s).1, Canonical (y.2.1, y.2.2) := by
    intro y hy
    unfold segments at hy
    obtain ⟨z, hz, rfl⟩ := List.mem_map.1 hy
    have hz := (List.mem_filter.1 hz).1
    exact h1 z.2 (List.mem_of_mem_tail (List.of_mem_zip (show (z.1, z.2) ∈ _ from hz)).2)
  unfold explodePath
  rw [hloop]
  cases hpe : (parsePath env s).2 with
  | some e' =>
    refine ⟨fun e => ?_, fun ds hds => (by cases hds)⟩
    constructor
    · intro h; rw [Except.error.inj h]
    · intro h; rw [Option.some.inj h]
  | none =>
    refine ⟨fun e => ⟨fun h => (by cases h), fun h => (by cases h)⟩, fun ds hds => ?_⟩
    rw [← Except.ok.inj hds, List.map_map]
    apply List.map_congr_left
    intro y hy
    exact piece_parse env h y.1 (hcan y hy)

end

/-! ## Non-vacuity -/

/-- A numeral for `3`, for the examples. -/
def three : Numeral := ⟨none, ['3'], none, none⟩

theorem three_valid : three.Valid :=
  ⟨rfl, fun _ h => (by cases h), (by simp [three]), fun _ _ _ h => (by cases h)⟩

/-- A printer (that prints every number as `3`) which meets the hypothesis of **C84**. -/
example : Prints (⟨fun _ => three.text, fun _ => three.text, fun _ => three.text⟩ : TextEnv ℚ) (fun _ => three) (fun _ => three)
    (fun _ => three) :=
  ⟨fun _ => ⟨rfl, three_valid⟩, fun _ => ⟨rfl, three_valid⟩, fun _ => ⟨rfl, three_valid, rfl, rfl⟩⟩

/-- A path with two drawing commands in two subpaths. -/
example : segments (parsePath exactQ "M1 2L3 4M5 6Q7 8 9 9".toList).1 = [(⟨1, 2⟩, 'L', [3, 4]), (⟨5, 6⟩, 'Q', [7, 8, 9, 9])] := by
  decide +kernel

/-- Non-vacuity of **C72** and **C83**: a compact text and the commands it spells. -/
example : Spells "M-1.5.25,3E2".toList ([('M', [⟨some true, ['1'], some ['5'], none⟩, ⟨none, [], some ['2', '5'], none⟩])].flatMap lexOf ++
    [Lex.num ⟨none, ['3'], none, some (true, none, ['2'])⟩]) := by
  have v1 : Numeral.Valid ⟨some true, ['1'], some ['5'], none⟩ :=
    ⟨rfl, fun _ h => (by cases h; rfl), (by simp), fun _ _ _ h => (by cases h)⟩
  have v2 : Numeral.Valid ⟨none, [], some ['2', '5'], none⟩ :=
    ⟨rfl, fun _ h => (by cases h; rfl), (by simp), fun _ _ _ h => (by cases h)⟩
  have v3 : Numeral.Valid ⟨none, ['3'], none, some (true, none, ['2'])⟩ :=
    ⟨rfl, fun _ h => (by cases h), (by simp), fun _ _ _ h => (by cases h; exact ⟨rfl, by simp⟩)⟩
  refine Spells.cmd 'M' _ _ (by decide +kernel) ?_
  refine Spells.num _ ".25,3E2".toList _ v1 (Or.inr ⟨'.', _, rfl, ?_⟩) ?_
  · right; right; right; right; exact ⟨rfl, by simp⟩
  refine Spells.num _ ",3E2".toList _ v2 (Or.inr ⟨',', _, rfl, Or.inl (by decide)⟩) ?_
  refine Spells.sep ',' _ _ (by decide) ?_
  exact Spells.num _ [] _ v3 (Or.inl rfl) Spells.nil

/-- Non-vacuity of **C72**: a text with numbers in several notations, and what it is read as. -/
example : parsePath exactQ "M-1.5.25L3E2 5".toList = ([('M', [-3/2, 1/4]), ('L', [300, 5])], none) := by
  have v1 : Numeral.Valid ⟨some true, ['1'], some ['5'], none⟩ :=
    ⟨rfl, fun _ h => (by cases h; rfl), (by simp), fun _ _ _ h => (by cases h)⟩
  have v2 : Numeral.Valid ⟨none, [], some ['2', '5'], none⟩ :=
    ⟨rfl, fun _ h => (by cases h; rfl), (by simp), fun _ _ _ h => (by cases h)⟩
  have v3 : Numeral.Valid ⟨none, ['3'], none, some (true, none, ['2'])⟩ :=
    ⟨rfl, fun _ h => (by cases h), (by simp), fun _ _ _ h => (by cases h; exact ⟨rfl, by simp⟩)⟩
  have v4 : Numeral.Valid ⟨none, ['5'], none, none⟩ :=
    ⟨rfl, fun _ h => (by cases h), (by simp), fun _ _ _ h => (by cases h)⟩
  have := C72_round_trip exactQ [('M', [⟨some true, ['1'], some ['5'], none⟩, ⟨none, [], some ['2', '5'], none⟩]),
      ('L', [⟨none, ['3'], none, some (true, none, ['2'])⟩, ⟨none, ['5'], none, none⟩])]
    (by intro x hx
        simp only [List.mem_cons, List.not_mem_nil, or_false] at hx
        rcases hx with rfl | rfl
        · refine ⟨rfl, ?_, fun h => (by cases h)⟩
          intro n hn
          simp only [List.mem_cons, List.not_mem_nil, or_false] at hn
          rcases hn with rfl | rfl
          · exact v1
          · exact v2
        · refine ⟨rfl, ?_, fun h => (by cases h)⟩
          intro n hn
          simp only [List.mem_cons, List.not_mem_nil, or_false] at hn
          rcases hn with rfl | rfl
          · exact v3
          · exact v4)
    (by intro x hx; simp only [List.head?_cons, Option.some.injEq] at hx; rw [← hx])
    (s := "M-1.5.25L3E2 5".toList)
    (by refine Spells.cmd 'M' _ _ (by decide +kernel) ?_
        refine Spells.num _ ".25L3E2 5".toList _ v1 (Or.inr ⟨'.', _, rfl, ?_⟩) ?_
        · right; right; right; right; exact ⟨rfl, by simp⟩
        refine Spells.num _ "L3E2 5".toList _ v2 (Or.inr ⟨'L', _, rfl, Or.inr (Or.inl (by decide))⟩) ?_
        refine Spells.cmd 'L' _ _ (by decide +kernel) ?_
        refine Spells.num _ " 5".toList _ v3 (Or.inr ⟨' ', _, rfl, Or.inl (by decide)⟩) ?_
        refine Spells.sep ' ' _ _ (by decide) ?_
        exact Spells.num _ [] _ v4 (Or.inl rfl) Spells.nil)
  rw [this]
  decide +kernel

end Verif.Svg
