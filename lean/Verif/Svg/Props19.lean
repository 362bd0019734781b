import Verif.Svg.Output
import Verif.Svg.Props5
import Verif.GCode.Props4

/-!
# C129: the path data that is written is read back as what was drawn
-/

set_option linter.unusedSectionVars false

namespace Verif.Svg
open Verif PyFloat PyTrig Geom

/-! ## Specification -/

/-- Specification: rounding to `n` decimals: every number moves by at most half a unit of the last decimal, and numbers with `n`
decimals do not move. -/
structure Rounding (n : Nat) (rnd : ℚ → ℚ) : Prop where
  near : ∀ q, |rnd q - q| ≤ 1 / 2 / 10 ^ n
  exact : ∀ k : ℤ, rnd (k / 10 ^ n) = k / 10 ^ n

/-- Specification: all numbers of a list of commands rounded. -/
def rounded (rnd : ℚ → ℚ) (cs : List (Char × List ℚ)) : List (Char × List ℚ) := cs.map fun c => (c.1, c.2.map rnd)

/-- Specification: the command that draws a segment (SVG 1.1, 8.3): radius, radius, no rotation, the shorter arc, counted
positive iff the angle is not negative, end point. -/
def cmdOf : Shape ℚ → List (Char × List ℚ)
  | .line l => [('L', [l.p2.x, l.p2.y])]
  | .bez b => [('C', [b.c1.x, b.c1.y, b.c2.x, b.c2.y, b.p2.x, b.p2.y])]
  | .arc a => [('A', [a.radius, a.radius, 0, 0, if a.angle < 0 then 0 else 1, a.p2.x, a.p2.y])]
  | .other _ _ => []

/-- Specification: a line to a point. -/
def lineTo (p : P ℚ) : Char × List ℚ := ('L', [p.x, p.y])

/-! ## Lemmas: numbers -/

/-- The number with `n` decimals that is printed. -/
def roundQ (n : Nat) (q : ℚ) : ℚ := (if q < 0 then -(roundHalfEven (|q| * 10 ^ n) : ℚ) else roundHalfEven (|q| * 10 ^ n)) / 10 ^ n

/-- The numeral that is printed. -/
def numQ (n : Nat) (q : ℚ) : Numeral :=
  ⟨if q < 0 then some true else none, natDigits (roundHalfEven (|q| * 10 ^ n) / 10 ^ n),
    if n = 0 then none else some (padZero n (natDigits (roundHalfEven (|q| * 10 ^ n) % 10 ^ n))), none⟩

theorem isDig_of_isDigit {c : Char} (h : c.isDigit = true) : isDig c = true := by
  unfold isDig
  simp only [Char.isDigit, Bool.and_eq_true, decide_eq_true_eq] at h ⊢
  exact ⟨h.1, h.2⟩

theorem all_isDig {s : Str} (h : ∀ c ∈ s, c.isDigit = true) : s.all isDig = true := by
  rw [List.all_eq_true]
  exact fun c hc => isDig_of_isDigit (h c hc)

theorem natOf_eq (s : Str) : natOf s = GCode.digitsVal s := by
  unfold natOf GCode.digitsVal
  congr 1
  funext a c
  rw [Nat.mul_comm]
  rfl

theorem natOf_from (t : Str) : ∀ a, t.foldl (fun n c => 10 * n + (c.toNat - '0'.toNat)) a = a * 10 ^ t.length + natOf t := by
  unfold natOf
  induction t with
  | nil => intro a; simp
  | cons c t ih =>
    intro a
    simp only [List.foldl_cons, List.length_cons, Nat.mul_zero, Nat.zero_add]
    rw [ih, ih (c.toNat - '0'.toNat)]
    rw [pow_succ]; ring

theorem natOf_append (s t : Str) : natOf (s ++ t) = natOf s * 10 ^ t.length + natOf t := by
  unfold natOf
  rw [List.foldl_append, natOf_from]
  rfl

theorem numQ_text (n : Nat) (q : ℚ) : (fmt n q : Str) = (numQ n q).text := by
  show fmtRat n q = _
  unfold fmtRat numQ Numeral.text
  dsimp only
  by_cases hq : q < 0 <;> by_cases hn : n = 0 <;> simp [hq, hn, signText, fracText, expText]

theorem numQ_valid (n : Nat) (q : ℚ) : (numQ n q).Valid := by
  refine ⟨all_isDig (GCode.natDigits_digit _), ?_, ?_, ?_⟩
  · intro ds h
    unfold numQ at h
    dsimp only at h
    by_cases hn : n = 0
    · rw [if_pos hn] at h; cases h
    · rw [if_neg hn] at h
      injection h with h
      rw [← h]
      exact all_isDig (GCode.padZero_digit _ _)
  · intro h
    exact GCode.natDigits_ne _ (List.append_eq_nil_iff.1 h).1
  · intro u s ds h; cases h

theorem numQ_value (n : Nat) (q : ℚ) : (numQ n q).value exactQ = roundQ n q := by
  have hpos : (0 : ℚ) < 10 ^ n := by positivity
  set m := roundHalfEven (|q| * 10 ^ n) with hm
  have hneg : (numQ n q).negative = decide (q < 0) := by
    unfold Numeral.negative numQ
    by_cases hq : q < 0 <;> simp [hq]
  have key : ((natOf ((numQ n q).ip ++ (numQ n q).frac.getD []) : ℕ) : ℚ) * (10 : ℚ) ^ (numQ n q).exponent = m / 10 ^ n := by
    unfold Numeral.exponent numQ
    dsimp only
    rw [← hm]
    by_cases hn : n = 0
    · subst hn
      simp [expValue, natOf_eq, GCode.digitsVal_natDigits]
    · have hlen := GCode.padZero_length n (m % 10 ^ n) (Nat.pos_of_ne_zero hn) (Nat.mod_lt _ (by positivity))
      simp only [if_neg hn, Option.getD_some, expValue, hlen]
      rw [natOf_append, natOf_eq, natOf_eq, GCode.digitsVal_natDigits, GCode.digitsVal_pad, hlen, Nat.div_add_mod']
      rw [zero_sub, zpow_neg, zpow_natCast, div_eq_mul_inv]
  unfold Numeral.value
  rw [hneg]
  unfold roundQ
  rw [← hm]
  show (if decide (q < 0) = true then -((natOf _ : ℕ) : ℚ) else ((natOf _ : ℕ) : ℚ)) * (10 : ℚ) ^ _ = _
  by_cases hq : q < 0
  · simp only [hq, decide_true, if_true]
    rw [neg_mul, key, neg_div]
  · simp only [hq, decide_false, if_false, Bool.false_eq_true]
    exact key

/-- **C129** (rounding): the numbers that are printed are the given ones rounded to the output precision. -/
theorem C129_rounding (n : Nat) : Rounding n (roundQ n) := by
  have hpos : (0 : ℚ) < 10 ^ n := by positivity
  constructor
  · intro q
    have h := GCode.roundHalfEven_near (|q| * 10 ^ n) (by positivity)
    unfold roundQ
    have e : ∀ m : ℚ, m / 10 ^ n - |q| = (m - |q| * 10 ^ n) / 10 ^ n := by intro m; field_simp
    have k : ∀ m : ℚ, |m - |q| * 10 ^ n| ≤ 1 / 2 → |m / 10 ^ n - (|q|)| ≤ 1 / 2 / 10 ^ n := by
      intro m hm
      rw [e, abs_div, abs_of_pos hpos]
      exact div_le_div_of_nonneg_right hm hpos.le
    have := k _ h
    by_cases hq : q < 0
    · rw [if_pos hq]
      rw [abs_of_neg hq] at this ⊢
      rw [← abs_neg, neg_sub, neg_div]
      rw [show q - -((roundHalfEven (-q * 10 ^ n) : ℚ) / 10 ^ n) = (roundHalfEven (-q * 10 ^ n) : ℚ) / 10 ^ n - -q by ring]
      exact this
    · rw [if_neg hq]
      rw [abs_of_nonneg (not_lt.1 hq)] at this ⊢
      exact this
  · intro k
    have hr : ∀ m : ℕ, roundHalfEven (m : ℚ) = m := by
      intro m
      unfold roundHalfEven
      simp
    have ha : |(k : ℚ) / 10 ^ n| * 10 ^ n = (k.natAbs : ℕ) := by
      rw [abs_div, abs_of_pos hpos, div_mul_cancel₀ _ hpos.ne', Nat.cast_natAbs, Int.cast_abs]
    unfold roundQ
    rw [ha, hr]
    congr 1
    have hk : (k : ℚ) / 10 ^ n < 0 ↔ k < 0 := by
      rw [div_lt_iff₀ hpos, zero_mul]
      exact_mod_cast Iff.rfl
    by_cases h : k < 0
    · rw [if_pos (hk.2 h), Nat.cast_natAbs, abs_of_neg h]; push_cast; ring
    · rw [if_neg (fun g => h (hk.1 g)), Nat.cast_natAbs, abs_of_nonneg (not_lt.1 h)]

/-- Non-vacuity: rounding at work. -/
example : roundQ 2 (1 / 3) = 33 / 100 ∧ roundQ 2 (-2 / 3) = -67 / 100 ∧ roundQ 0 (5 / 2) = 2 := by decide +kernel

theorem roundQ_int (n : Nat) (k : ℤ) : roundQ n k = k := by
  have h := (C129_rounding n).exact (k * 10 ^ n)
  have hpos : (0 : ℚ) < 10 ^ n := by positivity
  push_cast at h
  rw [mul_div_assoc, div_self hpos.ne', mul_one] at h
  exact h

/-! ## Lemmas: text -/

theorem boundary_append {m : Numeral} {s t : Str} {c : Char} (hc : c ∈ separators) (h : Boundary m s) : Boundary m (s ++ c :: t) := by
  rcases h with rfl | ⟨d, r, rfl, h⟩
  · exact Or.inr ⟨c, t, rfl, Or.inl hc⟩
  · exact Or.inr ⟨d, r ++ c :: t, rfl, h⟩

theorem spells_then {s t : Str} {l m : List Lex} (hs : Spells s l) {c : Char} (hc : c ∈ separators) (ht : Spells t m) :
    Spells (s ++ c :: t) (l ++ m) := by
  induction hs with
  | nil => exact Spells.sep c _ _ hc ht
  | sep d s l hd _ ih => exact Spells.sep d _ _ hd ih
  | cmd d s l hd _ ih => exact Spells.cmd d _ _ hd ih
  | num n s l hv hb _ ih =>
    rw [List.append_assoc]
    exact Spells.num n _ _ hv (boundary_append hc hb) ih

theorem space_sep : ' ' ∈ separators := by decide
theorem comma_sep : ',' ∈ separators := by decide

theorem spells_join (items : List (Str × List Lex)) (h : ∀ x ∈ items, Spells x.1 x.2) :
    Spells (joinSp (items.map Prod.fst)) (items.flatMap Prod.snd) := by
  induction items with
  | nil => exact Spells.nil
  | cons x items ih =>
    have i := ih fun y hy => h y (by simp [hy])
    have hx := h x (by simp)
    cases items with
    | nil => simpa [joinSp] using hx
    | cons y items =>
      have := spells_then hx space_sep i
      simpa [joinSp] using this

theorem spells_number (m : Numeral) (h : m.Valid) : Spells m.text [Lex.num m] := by
  have := Spells.num m [] [] h (Or.inl rfl) Spells.nil
  simpa using this

theorem spells_letter {c : Char} (h : c ∈ cmdLetters) : Spells [c] [Lex.cmd c] := Spells.cmd c _ _ h Spells.nil

/-- The two numbers of a point. -/
def numP (n : Nat) (p : P ℚ) : List Numeral := [numQ n p.x, numQ n p.y]

theorem spells_point (n : Nat) (p : P ℚ) : Spells (fmtPoint n p) ((numP n p).map Lex.num) := by
  unfold fmtPoint
  rw [numQ_text, numQ_text]
  exact spells_then (spells_number _ (numQ_valid n p.x)) comma_sep (spells_number _ (numQ_valid n p.y))

/-- A flag as a numeral. -/
def numFlag (k : Nat) : Numeral := ⟨none, natDigits k, none, none⟩

theorem numFlag_ok (k : Nat) : natDigits k = (numFlag k).text ∧ (numFlag k).Valid ∧ (numFlag k).IsInt ∧ ((numFlag k).intValue : ℚ) = k := by
  refine ⟨by simp [numFlag, Numeral.text, signText, fracText, expText], ⟨all_isDig (GCode.natDigits_digit _), ?_, ?_, ?_⟩, ⟨rfl, rfl⟩, ?_⟩
  · intro ds h; cases h
  · intro h
    exact GCode.natDigits_ne _ (List.append_eq_nil_iff.1 h).1
  · intro u s ds h; cases h
  · unfold Numeral.intValue numFlag Numeral.negative
    show ((if (none == some true) = true then -((natOf (natDigits k) : ℕ) : ℤ) else ((natOf (natDigits k) : ℕ) : ℤ) : ℤ) : ℚ) = k
    rw [natOf_eq, GCode.digitsVal_natDigits]
    rfl

/-- The numerals of a segment's command. -/
def wcmdOf (n : Nat) : Shape ℚ → List (Char × List Numeral)
  | .line l => [('L', numP n l.p2)]
  | .bez b => [('C', numP n b.c1 ++ numP n b.c2 ++ numP n b.p2)]
  | .arc a => [('A', [numQ n a.radius, numQ n a.radius, numQ n 0, numFlag 0, numFlag (if a.angle < 0 then 0 else 1)] ++ numP n a.p2)]
  | .other _ _ => []

theorem spells_cmd {c : Char} (hc : c ∈ cmdLetters) {s : Str} {l : List Lex} (h : Spells s l) : Spells (c :: ' ' :: s) (Lex.cmd c :: l) :=
  Spells.cmd c _ _ hc (Spells.sep ' ' _ _ space_sep h)

theorem spells_arc (n : Nat) (rx ry rot : ℚ) (large sweep : Nat) (q : P ℚ) :
    Spells (fmtArc n rx ry rot large sweep q)
      (lexOf ('A', [numQ n rx, numQ n ry, numQ n rot, numFlag large, numFlag sweep] ++ numP n q)) := by
  unfold fmtArc
  rw [(numFlag_ok large).1, (numFlag_ok sweep).1, numQ_text n rot]
  have h5 := spells_point n q
  have h4 := spells_then (spells_number _ (numFlag_ok sweep).2.1) space_sep h5
  have h3 := spells_then (spells_number _ (numFlag_ok large).2.1) space_sep h4
  have h2 := spells_then (spells_number _ (numQ_valid n rot)) space_sep h3
  have h1 := spells_then (spells_point n ⟨rx, ry⟩) space_sep h2
  have h0 := spells_cmd (c := 'A') (by decide +kernel) h1
  simpa [lexOf, numP] using h0

theorem spells_curve (n : Nat) (c1 c2 p2 : P ℚ) : Spells (fmtCurve n c1 c2 p2) (lexOf ('C', numP n c1 ++ numP n c2 ++ numP n p2)) := by
  have h0 := spells_cmd (c := 'C') (by decide +kernel)
    (spells_then (spells_point n c1) space_sep (spells_then (spells_point n c2) space_sep (spells_point n p2)))
  simpa [fmtCurve, lexOf] using h0

theorem spells_move (n : Nat) (p : P ℚ) : Spells (fmtMove n p) (lexOf ('M', numP n p)) :=
  spells_cmd (c := 'M') (by decide +kernel) (spells_point n p)

theorem numP_valid (n : Nat) (p : P ℚ) : ∀ m ∈ numP n p, m.Valid := by
  intro m hm
  simp only [numP, List.mem_cons, List.not_mem_nil, or_false] at hm
  rcases hm with rfl | rfl <;> exact numQ_valid _ _

theorem wcmd_written (n : Nat) (s : Shape ℚ) : ∀ x ∈ wcmdOf n s, WrittenCmd x := by
  intro x hx
  cases s with
  | line l =>
    simp only [wcmdOf, List.mem_singleton] at hx
    subst hx
    exact ⟨rfl, numP_valid n _, fun h => by cases h⟩
  | bez b =>
    simp only [wcmdOf, List.mem_singleton] at hx
    subst hx
    refine ⟨rfl, ?_, fun h => by cases h⟩
    intro m hm
    simp only [List.mem_append] at hm
    rcases hm with (h | h) | h <;> exact numP_valid n _ m h
  | arc a =>
    simp only [wcmdOf, List.mem_singleton] at hx
    subst hx
    refine ⟨rfl, ?_, ?_⟩
    · intro m hm
      simp only [List.mem_append, List.mem_cons, List.not_mem_nil, or_false] at hm
      rcases hm with (rfl | rfl | rfl | rfl | rfl) | h
      · exact numQ_valid _ _
      · exact numQ_valid _ _
      · exact numQ_valid _ _
      · exact (numFlag_ok _).2.1
      · exact (numFlag_ok _).2.1
      · exact numP_valid n _ m h
    · intro _ i m hm hi
      rcases hi with rfl | rfl
      · have : numFlag 0 = m := Option.some.inj hm
        rw [← this]; exact (numFlag_ok _).2.2.1
      · have : numFlag _ = m := Option.some.inj hm
        rw [← this]; exact (numFlag_ok _).2.2.1
  | other p q => simp [wcmdOf] at hx

theorem roundQ_zero (n : Nat) : roundQ n 0 = 0 := by simpa using roundQ_int n 0
theorem roundQ_one (n : Nat) : roundQ n 1 = 1 := by simpa using roundQ_int n 1

theorem wcmd_values (n : Nat) (s : Shape ℚ) : (wcmdOf n s).map (fun x => (x.1, argValues exactQ x.1 x.2)) = rounded (roundQ n) (cmdOf s) := by
  cases s with
  | line l => simp [wcmdOf, cmdOf, rounded, argValues, numP, numQ_value]
  | bez b => simp [wcmdOf, cmdOf, rounded, argValues, numP, numQ_value]
  | arc a =>
    have h0 := (numFlag_ok 0).2.2.2
    have h1 := (numFlag_ok (if a.angle < 0 then 0 else 1)).2.2.2
    simp only [wcmdOf, cmdOf, rounded, argValues, numP, numQ_value, List.map_cons, List.map_nil, List.cons_append, List.nil_append, h0, h1,
      roundQ_zero]
    by_cases h : a.angle < 0 <;> simp [h, roundQ_zero, roundQ_one]
  | other p q => rfl

/-! ## Lemmas: reading with a final `Z`, and repeated lines -/

theorem reads_then (cs : List (Char × List Numeral)) (h : ∀ x ∈ cs, WrittenCmd x) (ts : List Tok) (cs' : List (Char × List ℚ))
    (ht : ∀ p, Reads exactQ p ts cs') : ∀ p,
    Reads exactQ p ((cs.flatMap lexOf).map Lex.tok ++ ts) ((cs.map fun x => (x.1, argValues exactQ x.1 x.2)) ++ cs') := by
  induction cs with
  | nil => intro p; exact ht p
  | cons x cs ih =>
    intro p
    obtain ⟨h1, -, -, h4, -⟩ := written_reads exactQ (h x (by simp))
    have := Reads.explicit p x.1 (x.2.map Numeral.text) (argValues exactQ x.1 x.2) _ _ h1 h4
      (ih (fun y hy => h y (by simp [hy])) (some x.1))
    simpa [lexOf, Lex.tok, Function.comp_def, List.map_flatMap] using this

theorem reads_close (b : Bool) : ∀ p, Reads exactQ p (if b then [(['Z'], true)] else []) (if b then [('Z', [])] else []) := by
  intro p
  cases b
  · exact Reads.nil p
  · exact Reads.explicit p 'Z' [] [] [] [] (by decide +kernel) (by rw [show paramKinds (upperC 'Z') = [] by decide +kernel]; trivial) (Reads.nil _)

/-- Specification of the lemmas: the line that `Z` draws. -/
def backTo (b : Bool) (p : P ℚ) : List (Char × List ℚ) := if b then [lineTo p] else []

theorem meaning_close (b : Bool) (cs : List (Char × List ℚ)) (h : ∀ x ∈ cs, (x.1 = 'L' ∧ x.2.length = 2) ∨ (x.1 = 'C' ∧ x.2.length = 6) ∨ (x.1 = 'A' ∧ x.2.length = 7)) :
    ∀ tr : Track ℚ, meaning codeRule tr (cs ++ if b then [('Z', [])] else []) = cs ++ backTo b tr.start := by
  induction cs with
  | nil =>
    intro tr
    cases b
    · rfl
    · simp only [List.nil_append, if_true, backTo, meaning]
      rw [show upperC 'Z' = 'Z' by decide +kernel]
      rfl
  | cons x cs ih =>
    intro tr
    have i := ih fun y hy => h y (by simp [hy])
    obtain ⟨c, a⟩ := x
    have hx := h (c, a) (by simp)
    have key : ∃ tr', tr'.start = tr.start ∧ meaning codeRule tr ((c, a) :: cs ++ if b then [('Z', [])] else []) =
        (c, a) :: meaning codeRule tr' (cs ++ if b then [('Z', [])] else []) := by
      rcases hx with ⟨hc, hl⟩ | ⟨hc, hl⟩ | ⟨hc, hl⟩
      · have hc : c = 'L' := hc
        subst hc
        match a, hl with
        | [x, y], _ =>
          refine ⟨tr.next codeRule 'L' [x, y], rfl, ?_⟩
          rw [List.cons_append, meaning, show upperC 'L' = 'L' by decide +kernel]
          have : absArgs tr 'L' [x, y] = [x, y] := by
            unfold absArgs
            rw [show isRel 'L' = false by decide +kernel]; rfl
          rw [this]
          rfl
      · have hc : c = 'C' := hc
        subst hc
        match a, hl with
        | [a1, a2, a3, a4, a5, a6], _ =>
          refine ⟨tr.next codeRule 'C' [a1, a2, a3, a4, a5, a6], rfl, ?_⟩
          rw [List.cons_append, meaning, show upperC 'C' = 'C' by decide +kernel]
          have : absArgs tr 'C' [a1, a2, a3, a4, a5, a6] = [a1, a2, a3, a4, a5, a6] := by
            unfold absArgs
            rw [show isRel 'C' = false by decide +kernel]; rfl
          rw [this]
          rfl
      · have hc : c = 'A' := hc
        subst hc
        match a, hl with
        | [a1, a2, a3, a4, a5, a6, a7], _ =>
          refine ⟨tr.next codeRule 'A' [a1, a2, a3, a4, a5, a6, a7], rfl, ?_⟩
          rw [List.cons_append, meaning, show upperC 'A' = 'A' by decide +kernel]
          have : absArgs tr 'A' [a1, a2, a3, a4, a5, a6, a7] = [a1, a2, a3, a4, a5, a6, a7] := by
            unfold absArgs
            rw [show isRel 'A' = false by decide +kernel]; rfl
          rw [this]
          rfl
    obtain ⟨tr', h1, h2⟩ := key
    rw [h2, i tr', h1]
    rfl

theorem meaning_move (p : P ℚ) (b : Bool) (cs : List (Char × List ℚ)) (h : ∀ x ∈ cs, (x.1 = 'L' ∧ x.2.length = 2) ∨ (x.1 = 'C' ∧ x.2.length = 6) ∨ (x.1 = 'A' ∧ x.2.length = 7)) :
    meaning codeRule Track.init (('M', [p.x, p.y]) :: (cs ++ if b then [('Z', [])] else [])) = ('M', [p.x, p.y]) :: cs ++ backTo b p := by
  rw [meaning, show upperC 'M' = 'M' by decide +kernel]
  have : absArgs (Track.init : Track ℚ) 'M' [p.x, p.y] = [p.x, p.y] := by
    unfold absArgs
    rw [show isRel 'M' = false by decide +kernel]; rfl
  rw [this]
  show ('M', [p.x, p.y]) :: meaning codeRule (Track.next codeRule Track.init 'M' [p.x, p.y]) _ = _
  rw [meaning_close b cs h]
  rfl

theorem starts_move (p : P ℚ) (cs : List (Char × List ℚ)) : StartsM (('M', [p.x, p.y]) :: cs) := by
  intro c a h
  simp only [List.head?_cons, Option.some.injEq, Prod.mk.injEq] at h
  rw [← h.1]; decide +kernel

/-- A point rounded. -/
def roundP (n : Nat) (p : P ℚ) : P ℚ := ⟨roundQ n p.x, roundQ n p.y⟩

theorem numP_values (n : Nat) (p : P ℚ) : (numP n p).map (Numeral.value exactQ) = [(roundP n p).x, (roundP n p).y] := by
  simp [numP, numQ_value, roundP]

theorem move_written (n : Nat) (p : P ℚ) : WrittenCmd ('M', numP n p) := ⟨rfl, numP_valid n p, fun h => by cases h⟩

theorem cmdOf_shape (s : Shape ℚ) (rnd : ℚ → ℚ) : ∀ x ∈ rounded rnd (cmdOf s), (x.1 = 'L' ∧ x.2.length = 2) ∨ (x.1 = 'C' ∧ x.2.length = 6) ∨ (x.1 = 'A' ∧ x.2.length = 7) := by
  intro x hx
  cases s <;> simp [cmdOf, rounded] at hx <;> subst hx <;> simp

/-! ## C129 -/

/-- The reader on a text that spells commands and perhaps a `Z`. -/
theorem read_written (n : Nat) (p : P ℚ) (b : Bool) (segs : List (Shape ℚ)) {s : Str}
    (hs : Spells s (lexOf ('M', numP n p) ++ (segs.flatMap (wcmdOf n)).flatMap lexOf ++ if b then [Lex.cmd 'Z'] else [])) :
    parsePath exactQ s = (rounded (roundQ n) (('M', [p.x, p.y]) :: segs.flatMap cmdOf ++ backTo b p), none) := by
  have hw : ∀ x ∈ ('M', numP n p) :: segs.flatMap (wcmdOf n), WrittenCmd x := by
    intro x hx
    rcases List.mem_cons.1 hx with rfl | hx
    · exact move_written n p
    · obtain ⟨y, -, hy⟩ := List.mem_flatMap.1 hx
      exact wcmd_written n y x hy
  have hr := reads_then _ hw _ _ (reads_close b) none
  have htok : tokenize s = (((('M', numP n p) :: segs.flatMap (wcmdOf n)).flatMap lexOf).map Lex.tok ++ if b then [(['Z'], true)] else []) := by
    rw [C83_separators_partial hs, List.map_append]
    cases b <;> simp [Lex.tok]
  rw [← htok] at hr
  have hvals : (('M', numP n p) :: segs.flatMap (wcmdOf n)).map (fun x => (x.1, argValues exactQ x.1 x.2)) =
      ('M', [(roundP n p).x, (roundP n p).y]) :: rounded (roundQ n) (segs.flatMap cmdOf) := by
    rw [List.map_cons]
    congr 1
    · rw [← numP_values]; rfl
    · unfold rounded
      rw [List.map_flatMap, List.map_flatMap]
      congr 1
      funext y
      exact wcmd_values n y
  rw [hvals, List.cons_append] at hr
  rw [parse_text exactQ hr (starts_move _ _), meaning_move]
  · congr 1
    unfold rounded
    simp only [List.cons_append, List.map_cons, List.map_append, List.map_nil]
    congr 2
    cases b <;> simp [backTo, lineTo, roundP]
  · intro x hx
    unfold rounded at hx
    rw [List.map_flatMap] at hx
    obtain ⟨y, -, hy⟩ := List.mem_flatMap.1 hx
    exact cmdOf_shape y _ x hy

/-- **C129** (`create_polypath`): for every path that is not empty and every precision, the text written is read back as the path: a
move to its first point, one command per segment in order with all numbers rounded to the precision, and, if the path is to be
closed, a line to the (same) first point. -/
theorem C129_polypath (n : Nat) (closePath : Bool) (s : Shape ℚ) (path : List (Shape ℚ)) :
    ∃ d, polypathText n closePath (s :: path) = some d ∧
      parsePath exactQ d = (rounded (roundQ n)
        (('M', [s.p1.x, s.p1.y]) :: (s :: path).flatMap cmdOf ++ if closePath then [lineTo s.p1] else []), none) := by
  refine ⟨_, rfl, read_written n s.p1 closePath (s :: path) ?_⟩
  have hseg : ∀ y : Shape ℚ, ∃ it : List (Str × List Lex), (∀ x ∈ it, Spells x.1 x.2) ∧ it.map Prod.fst = segItems n y ∧
      it.flatMap Prod.snd = (wcmdOf n y).flatMap lexOf := by
    intro y
    cases y with
    | line l =>
      refine ⟨[(['L'], [Lex.cmd 'L']), (fmtPoint n l.p2, (numP n l.p2).map Lex.num)], ?_, rfl, ?_⟩
      · intro x hx
        simp only [List.mem_cons, List.not_mem_nil, or_false] at hx
        rcases hx with rfl | rfl
        · exact spells_letter (by decide +kernel)
        · exact spells_point n _
      · simp [wcmdOf, lexOf]
    | bez b =>
      refine ⟨[(fmtCurve n b.c1 b.c2 b.p2, lexOf ('C', numP n b.c1 ++ numP n b.c2 ++ numP n b.p2))], ?_, rfl, ?_⟩
      · intro x hx
        simp only [List.mem_cons, List.not_mem_nil, or_false] at hx
        subst hx
        exact spells_curve n _ _ _
      · simp [wcmdOf]
    | arc a =>
      refine ⟨[(fmtArc n a.radius a.radius zero 0 (sweepFlag a.angle) a.p2,
        lexOf ('A', [numQ n a.radius, numQ n a.radius, numQ n 0, numFlag 0, numFlag (if a.angle < 0 then 0 else 1)] ++ numP n a.p2))], ?_, rfl, ?_⟩
      · intro x hx
        simp only [List.mem_cons, List.not_mem_nil, or_false] at hx
        subst hx
        have := spells_arc n a.radius a.radius 0 0 (if a.angle < 0 then 0 else 1) a.p2
        have hz : (zero : ℚ) = 0 := by show ((0 : ℤ) : ℚ) = 0; simp
        have hlt : sweepFlag a.angle = if a.angle < 0 then 0 else 1 := by
          unfold sweepFlag
          rw [hz]
          show (if decide (a.angle < 0) = true then (0 : ℕ) else 1) = _
          simp
        rw [hz]
        simp only [hlt]
        exact this
      · simp [wcmdOf]
    | other p q => exact ⟨[], by simp, rfl, rfl⟩
  have hsegs : ∀ l : List (Shape ℚ), ∃ it : List (Str × List Lex), (∀ x ∈ it, Spells x.1 x.2) ∧ it.map Prod.fst = l.flatMap (segItems n) ∧
      it.flatMap Prod.snd = (l.flatMap (wcmdOf n)).flatMap lexOf := by
    intro l
    induction l with
    | nil => exact ⟨[], by simp, rfl, rfl⟩
    | cons y l ih =>
      obtain ⟨i1, a1, b1, c1⟩ := hseg y
      obtain ⟨i2, a2, b2, c2⟩ := ih
      refine ⟨i1 ++ i2, ?_, by simp [b1, b2], by simp [c1, c2]⟩
      intro x hx
      rcases List.mem_append.1 hx with h | h
      · exact a1 x h
      · exact a2 x h
  obtain ⟨it, h1, h2, h3⟩ := hsegs (s :: path)
  have := spells_join ((['M'], [Lex.cmd 'M']) :: (fmtPoint n s.p1, (numP n s.p1).map Lex.num) :: it ++ if closePath then [(['Z'], [Lex.cmd 'Z'])] else []) (by
    intro x hx
    simp only [List.cons_append, List.mem_cons, List.mem_append] at hx
    rcases hx with rfl | rfl | h | h
    · exact spells_letter (by decide +kernel)
    · exact spells_point n _
    · exact h1 x h
    · cases closePath
      · cases h
      · simp only [if_true, List.mem_singleton] at h
        subst h
        exact spells_letter (by decide +kernel))
  rw [List.flatMap_append, List.flatMap_cons, List.flatMap_cons, h3] at this
  cases closePath
  · simpa [lexOf, h2] using this
  · simpa [lexOf, h2] using this

/-- Non-vacuity: a path of all three kinds of segments. -/
example : (polypathText 2 true [Shape.line ⟨⟨0, 0⟩, ⟨1, 1/3⟩⟩, Shape.arc ⟨⟨1, 1/3⟩, ⟨2, 0⟩, 5, -1, ⟨0, 0⟩⟩,
    Shape.bez ⟨⟨2, 0⟩, ⟨3, 0⟩, ⟨4, 1⟩, ⟨5, (-2/3 : ℚ)⟩⟩]).map String.ofList =
    some "M 0.00,0.00 L 1.00,0.33 A 5.00,5.00 0.00 0 0 2.00,0.00 C 3.00,0.00 4.00,1.00 5.00,-0.67 Z" := by decide +kernel

/-- **C129** (`create_line`). -/
theorem C129_line (n : Nat) (p1 p2 : P ℚ) :
    parsePath exactQ (lineText n p1 p2) = (rounded (roundQ n) [('M', [p1.x, p1.y]), lineTo p2], none) := by
  have := read_written n p1 false [.line ⟨p1, p2⟩] (s := lineText n p1 p2) (by
    have h := spells_then (spells_move n p1) space_sep (spells_cmd (c := 'L') (by decide +kernel) (spells_point n p2))
    simpa [lineText, fmtLine, fmtMove, lexOf, wcmdOf] using h)
  simpa [backTo, cmdOf, lineTo] using this

/-- **C129** (`create_circular_arc`, for the two values of the sweep flag that its callers use). -/
theorem C129_arc (n : Nat) (p1 p2 : P ℚ) (r : ℚ) (sweep : Bool) :
    parsePath exactQ (arcText n p1 p2 r (if sweep then 1 else 0)) =
      (rounded (roundQ n) [('M', [p1.x, p1.y]), ('A', [r, r, 0, 0, if sweep then 1 else 0, p2.x, p2.y])], none) := by
  have := read_written n p1 false [.arc ⟨p1, p2, r, if sweep then 1 else -1, p1⟩] (s := arcText n p1 p2 r (if sweep then 1 else 0)) (by
    have h := spells_then (spells_move n p1) space_sep (spells_arc n r r 0 0 (if sweep then 1 else 0) p2)
    have hz : (zero : ℚ) = 0 := by show ((0 : ℤ) : ℚ) = 0; simp
    unfold arcText
    rw [hz]
    cases sweep <;> simpa [wcmdOf, show ¬ ((1 : ℚ) < 0) by norm_num] using h)
  cases sweep <;> simpa [backTo, cmdOf, show ¬ ((1 : ℚ) < 0) by norm_num] using this

/-- **C129** (`create_curve`). -/
theorem C129_curve (n : Nat) (b : Bez ℚ) :
    parsePath exactQ (curveText n b) =
      (rounded (roundQ n) [('M', [b.p1.x, b.p1.y]), ('C', [b.c1.x, b.c1.y, b.c2.x, b.c2.y, b.p2.x, b.p2.y])], none) := by
  have := read_written n b.p1 false [.bez b] (s := curveText n b) (by
    have h := spells_then (spells_move n b.p1) space_sep (spells_curve n b.c1 b.c2 b.p2)
    simpa [curveText, joinSp, wcmdOf] using h)
  simpa [backTo, cmdOf] using this

/-- **C129** (`create_ellipse`): for all points, radii and angles, the text of the two arcs is read back as a move and two arcs, each with the
same radii and rotation and the flags 0 and 1, the second one back to the first point. -/
theorem C129_two_arcs (n : Nat) (p1 p2 : P ℚ) (rx ry deg : ℚ) :
    parsePath exactQ (twoArcs n p1 p2 rx ry deg) = (rounded (roundQ n)
      [('M', [p1.x, p1.y]), ('A', [rx, ry, deg, 0, 1, p2.x, p2.y]), ('A', [rx, ry, deg, 0, 1, p1.x, p1.y])], none) := by
  set wa : P ℚ → Char × List Numeral := fun q => ('A', [numQ n rx, numQ n ry, numQ n deg, numFlag 0, numFlag 1] ++ numP n q) with hwa
  have hA : ∀ q, WrittenCmd (wa q) := by
    intro q
    refine ⟨rfl, ?_, ?_⟩
    · intro m hm
      simp only [hwa, List.mem_append, List.mem_cons, List.not_mem_nil, or_false] at hm
      rcases hm with (rfl | rfl | rfl | rfl | rfl) | h
      · exact numQ_valid _ _
      · exact numQ_valid _ _
      · exact numQ_valid _ _
      · exact (numFlag_ok _).2.1
      · exact (numFlag_ok _).2.1
      · exact numP_valid n _ m h
    · intro _ i m hm hi
      rcases hi with rfl | rfl
      · have : numFlag 0 = m := Option.some.inj hm
        rw [← this]; exact (numFlag_ok _).2.2.1
      · have : numFlag _ = m := Option.some.inj hm
        rw [← this]; exact (numFlag_ok _).2.2.1
  have hsp : Spells (twoArcs n p1 p2 rx ry deg) ([('M', numP n p1), wa p2, wa p1].flatMap lexOf) := by
    have h := spells_then (spells_then (spells_move n p1) space_sep (spells_arc n rx ry deg 0 1 p2)) space_sep (spells_arc n rx ry deg 0 1 p1)
    unfold twoArcs
    simpa [hwa] using h
  rw [C72_round_trip exactQ _ (by
    intro x hx
    simp only [List.mem_cons, List.not_mem_nil, or_false] at hx
    rcases hx with rfl | rfl | rfl
    · exact move_written n p1
    · exact hA p2
    · exact hA p1) (by intro x hx; simp only [List.head?_cons, Option.some.injEq] at hx; rw [← hx]) hsp]
  have h0 := (numFlag_ok 0).2.2.2
  have h1 := (numFlag_ok 1).2.2.2
  push_cast at h0 h1
  simp [rounded, hwa, argValues, numP, numQ_value, h0, h1, roundQ_zero, roundQ_one]

/-- Non-vacuity: an ellipse of radii 2 and 1. -/
example : String.ofList (twoArcs 1 ⟨2, 0⟩ ⟨-2, (0 : ℚ)⟩ 2 1 0) = "M 2.0,0.0 A 2.0,1.0 0.0 0 1 -2.0,0.0 A 2.0,1.0 0.0 0 1 2.0,0.0" := by decide +kernel

theorem reads_repeat (n : Nat) (vs : List (P ℚ)) (ts : List Tok) (cs : List (Char × List ℚ)) (h : ∀ p, Reads exactQ p ts cs) :
    Reads exactQ (some 'L') ((vs.flatMap fun v => (numP n v).map fun m => (m.text, false)) ++ ts)
      ((vs.map fun v => lineTo (roundP n v)) ++ cs) := by
  induction vs with
  | nil => exact h _
  | cons v vs ih =>
    have hi : implied 'L' = 'L' := by decide +kernel
    have := Reads.implicit (env := exactQ) 'L' ((numP n v).map Numeral.text) [(roundP n v).x, (roundP n v).y] _ _ (by decide +kernel) (by decide +kernel)
      (by rw [hi, show paramKinds (upperC 'L') = [false, false] by decide +kernel, ← numP_values]
          exact readArgs_dec exactQ (numP n v) (numP_valid n v)) (by rw [hi]; exact ih)
    rw [hi] at this
    simpa [lineTo, Function.comp_def] using this

/-- **C129** (`create_polygon`): for every list of at least two vertices and every precision, the text written is read back as a move
to the first vertex, lines to the others in order, a line to the first vertex if the polygon is to be closed and its last vertex differs
from the first, and once more if the path is to be closed; all numbers rounded to the precision. -/
theorem C129_polygon (n : Nat) (same : P ℚ → P ℚ → Bool) (closePolygon closePath : Bool) (v0 v1 : P ℚ) (vs : List (P ℚ)) :
    ∃ d, polygonText n same closePolygon closePath (v0 :: v1 :: vs) = some d ∧
      parsePath exactQ d = (rounded (roundQ n)
        (('M', [v0.x, v0.y]) :: lineTo v1 :: vs.map lineTo ++
          (if closePolygon = true ∧ same v0 ((v1 :: vs).getLast (by simp)) = false then [lineTo v0] else []) ++
          (if closePath then [lineTo v0] else [])), none) := by
  refine ⟨_, rfl, ?_⟩
  set again : List (P ℚ) := if closePolygon = true ∧ same v0 ((v1 :: vs).getLast (by simp)) = false then [v0] else [] with hag
  have hitems : polygonItems n same closePolygon closePath v0 (v1 :: vs) =
      ['M'] :: fmtPoint n v0 :: ['L'] :: fmtPoint n v1 :: (vs ++ again).map (fmtPoint n) ++ (if closePath then [['Z']] else []) := by
    unfold polygonItems
    have hl : (v0 :: v1 :: vs).getLast (by simp) = (v1 :: vs).getLast (by simp) := by simp
    rw [hl, hag]
    cases closePolygon <;> cases same v0 ((v1 :: vs).getLast (by simp)) <;> simp
  rw [hitems]
  set s := joinSp (['M'] :: fmtPoint n v0 :: ['L'] :: fmtPoint n v1 :: (vs ++ again).map (fmtPoint n) ++ (if closePath then [['Z']] else [])) with hs
  have hsp : Spells s (Lex.cmd 'M' :: (numP n v0).map Lex.num ++ (Lex.cmd 'L' :: (numP n v1).map Lex.num) ++
      ((vs ++ again).flatMap fun v => (numP n v).map Lex.num) ++ if closePath then [Lex.cmd 'Z'] else []) := by
    have := spells_join ((['M'], [Lex.cmd 'M']) :: (fmtPoint n v0, (numP n v0).map Lex.num) :: (['L'], [Lex.cmd 'L']) ::
      (fmtPoint n v1, (numP n v1).map Lex.num) :: (vs ++ again).map (fun v => (fmtPoint n v, (numP n v).map Lex.num)) ++
      if closePath then [(['Z'], [Lex.cmd 'Z'])] else []) (by
      intro x hx
      simp only [List.cons_append, List.mem_cons, List.mem_append, List.mem_map] at hx
      rcases hx with rfl | rfl | rfl | rfl | ⟨v, -, rfl⟩ | h
      · exact spells_letter (by decide +kernel)
      · exact spells_point n _
      · exact spells_letter (by decide +kernel)
      · exact spells_point n _
      · exact spells_point n _
      · cases closePath
        · cases h
        · simp only [if_true, List.mem_singleton] at h
          subst h
          exact spells_letter (by decide +kernel))
    rw [hs]
    cases closePath
    · simpa [List.flatMap_map, Function.comp_def] using this
    · simpa [List.flatMap_map, Function.comp_def] using this
  have hM : ReadArgs exactQ (paramKinds (upperC 'M')) ((numP n v0).map Numeral.text) [(roundP n v0).x, (roundP n v0).y] := by
    rw [show paramKinds (upperC 'M') = [false, false] by decide +kernel, ← numP_values]
    exact readArgs_dec exactQ (numP n v0) (numP_valid n v0)
  have hL : ReadArgs exactQ (paramKinds (upperC 'L')) ((numP n v1).map Numeral.text) [(roundP n v1).x, (roundP n v1).y] := by
    rw [show paramKinds (upperC 'L') = [false, false] by decide +kernel, ← numP_values]
    exact readArgs_dec exactQ (numP n v1) (numP_valid n v1)
  have hr := Reads.explicit (env := exactQ) none 'M' ((numP n v0).map Numeral.text) _ _ _ (by decide +kernel) hM
    (Reads.explicit (some 'M') 'L' ((numP n v1).map Numeral.text) _ _ _ (by decide +kernel) hL
      (reads_repeat n (vs ++ again) _ _ (reads_close closePath)))
  have htok : tokenize s = _ := C83_separators_partial hsp
  have hr' : Reads exactQ none (tokenize s) (('M', [(roundP n v0).x, (roundP n v0).y]) :: (('L', [(roundP n v1).x, (roundP n v1).y]) ::
      ((vs ++ again).map fun v => lineTo (roundP n v))  ++ if closePath then [('Z', [])] else [])) := by
    rw [htok]
    cases closePath
    · simpa [Lex.tok, Function.comp_def, List.map_flatMap] using hr
    · simpa [Lex.tok, Function.comp_def, List.map_flatMap] using hr
  rw [parse_text exactQ hr' (starts_move _ _), meaning_move]
  · congr 1
    have hlt : ∀ v : P ℚ, ((lineTo v).1, (lineTo v).2.map (roundQ n)) = lineTo (roundP n v) := fun v => rfl
    unfold rounded
    rw [hag]
    by_cases hc : closePolygon = true ∧ same v0 ((v1 :: vs).getLast (by simp)) = false
    · simp only [if_pos hc]
      cases closePath <;> simp [backTo, hlt, roundP] <;> simp [lineTo, roundP]
    · simp only [if_neg hc]
      cases closePath <;> simp [backTo, hlt, roundP] <;> simp [lineTo, roundP]
  · intro x hx
    simp only [List.mem_cons, List.mem_map] at hx
    rcases hx with rfl | ⟨v, -, rfl⟩ <;> exact Or.inl ⟨rfl, rfl⟩

/-- Non-vacuity: a triangle that is closed. -/
example : (polygonText 1 (fun p q => decide (p = q)) true true [⟨0, 0⟩, ⟨1, 0⟩, ⟨0, (1/2 : ℚ)⟩]).map String.ofList =
    some "M 0.0,0.0 L 1.0,0.0 0.0,0.5 0.0,0.0 Z" := by decide +kernel

theorem reads_args {p : Option Char} {ts : List Tok} {cs : List (Char × List ℚ)} (h : Reads exactQ p ts cs) :
    ∀ pre post, ts = pre ++ (['L'], true) :: post → ∃ t r, post = (t, false) :: r := by
  have skip : ∀ (args : List Str) (ts pre post : List Tok), (args.map fun t => (t, false)) ++ ts = pre ++ (['L'], true) :: post →
      ∃ pre', ts = pre' ++ (['L'], true) :: post := by
    intro args
    induction args with
    | nil => intro ts pre post h; exact ⟨pre, h⟩
    | cons a args ih =>
      intro ts pre post h
      cases pre with
      | nil => simp at h
      | cons b pre =>
        simp only [List.map_cons, List.cons_append, List.cons.injEq] at h
        exact ih ts pre post h.2
  induction h with
  | nil p => intro pre post h; simp at h
  | explicit p c args vals ts cs hc ha _ ih =>
    intro pre post h
    cases pre with
    | nil =>
      simp only [List.cons_append, List.nil_append, List.cons.injEq, Prod.mk.injEq, and_true] at h
      obtain ⟨rfl, rfl⟩ := h
      rw [show paramKinds (upperC 'L') = [false, false] by decide +kernel] at ha
      match args, ha with
      | t :: args, _ => exact ⟨t, _, rfl⟩
    | cons b pre =>
      simp only [List.cons_append, List.cons.injEq] at h
      obtain ⟨pre', h'⟩ := skip args ts pre post h.2
      exact ih pre' post h'
  | implicit p args vals ts cs hc hz ha _ ih =>
    intro pre post h
    obtain ⟨pre', h'⟩ := skip args ts pre post h
    exact ih pre' post h'

/-- The limit of **C129**: for a list of a single vertex the text is a moveto and a lineto without a point, which is no path data. -/
theorem C129_single_vertex :
    (polygonText 1 (fun p q => decide (p = q)) true true [⟨3, (1/2 : ℚ)⟩]).map String.ofList = some "M 3.0,0.5 L Z" ∧
    ∀ cs, ¬ Reads exactQ none (tokenize "M 3.0,0.5 L Z".toList) cs := by
  refine ⟨by decide +kernel, ?_⟩
  intro cs h
  have ht : tokenize "M 3.0,0.5 L Z".toList = [(['M'], true), ("3.0".toList, false), ("0.5".toList, false), (['L'], true), (['Z'], true)] := by decide +kernel
  rw [ht] at h
  obtain ⟨t, r, hr⟩ := reads_args h [(['M'], true), ("3.0".toList, false), ("0.5".toList, false)] [(['Z'], true)] rfl
  cases hr

end Verif.Svg
