import Verif.Svg.Props1

/-!
# C69 – C71: the meaning of path data
-/

set_option linter.unusedSectionVars false

namespace Verif.Svg
open Verif PyFloat PyTrig Geom

/-! ## Specification: the meaning of path commands (SVG 1.1, section 8.3) -/

/-- Specification: is a command letter relative (lower case)? -/
def isRel (c : Char) : Bool := decide (c ≠ upperC c)

/-- Specification: which parameters of a command are integers (the two flags of an elliptical arc); the length of the list is
the number of parameters. -/
def paramKinds : Char → List Bool
  | 'M' => [false, false]
  | 'L' => [false, false]
  | 'H' => [false]
  | 'V' => [false]
  | 'C' => [false, false, false, false, false, false]
  | 'S' => [false, false, false, false]
  | 'Q' => [false, false, false, false]
  | 'T' => [false, false]
  | 'A' => [false, false, false, true, true, false, false]
  | _ => []

section
variable {K : Type} [PyFloat K]

/-- Specification: the text reads as the value. -/
def ReadAs (env : NumEnv K) (isInt : Bool) (t : Str) (v : K) : Prop :=
  if isInt then intVal t = .ok v else env.float t = .ok v

/-- Specification: the texts read as the values. -/
def ReadArgs (env : NumEnv K) : List Bool → List Str → List K → Prop
  | [], [], [] => True
  | k :: ks, t :: ts, v :: vs => ReadAs env k t v ∧ ReadArgs env ks ts vs
  | _, _, _ => False

/-- Specification: the command implied when parameters follow a complete command (SVG 1.1, 8.3.1-8.3.2). -/
def implied (c : Char) : Char := if c = 'M' then 'L' else if c = 'm' then 'l' else c

/-- Specification: the tokens spell the list of commands.  A command letter may be left out where it is implied by the
previous one. -/
inductive Reads (env : NumEnv K) : Option Char → List Tok → List (Char × List K) → Prop
  | nil (p : Option Char) : Reads env p [] []
  | explicit (p : Option Char) (c : Char) (args : List Str) (vals : List K) (ts : List Tok) (cs : List (Char × List K)) :
      c ∈ cmdLetters → ReadArgs env (paramKinds (upperC c)) args vals → Reads env (some c) ts cs →
      Reads env p (([c], true) :: (args.map fun t => (t, false)) ++ ts) ((c, vals) :: cs)
  | implicit (p : Char) (args : List Str) (vals : List K) (ts : List Tok) (cs : List (Char × List K)) :
      p ∈ cmdLetters → upperC p ≠ 'Z' → ReadArgs env (paramKinds (upperC (implied p))) args vals → Reads env (some (implied p)) ts cs →
      Reads env (some p) ((args.map fun t => (t, false)) ++ ts) ((implied p, vals) :: cs)

/-- Specification: the list starts with a moveto. -/
def StartsM (cs : List (Char × List K)) : Prop := ∀ c a, cs.head? = some (c, a) → upperC c = 'M'

/-- Specification: coordinate pairs moved by `d`. -/
def movePairs (d : P K) : List K → List K
  | x :: y :: r => (x +. d.x) :: (y +. d.y) :: movePairs d r
  | l => l

/-- Specification: the absolute parameters of a relative command. -/
def toAbs (pen : P K) (C : Char) (a : List K) : List K :=
  match C, a with
  | 'H', [x] => [x +. pen.x]
  | 'V', [y] => [y +. pen.y]
  | 'A', [rx, ry, rot, large, sweep, x, y] => [rx, ry, rot, large, sweep, x +. pen.x, y +. pen.y]
  | _, a => movePairs pen a

/-- Specification: where the pen is, where the subpath began, and the control points that `S` and `T` mirror. -/
structure Track (K : Type) where
  pen : P K
  start : P K
  ctlS : P K
  ctlT : P K

/-- Specification: the pen at the origin. -/
def Track.init : Track K := ⟨⟨zero, zero⟩, ⟨zero, zero⟩, ⟨zero, zero⟩, ⟨zero, zero⟩⟩

/-- Specification: a point mirrored at the pen. -/
def Track.mirror (tr : Track K) (q : P K) : List K :=
  [tr.pen.x +. (tr.pen.x -. q.x), tr.pen.y +. (tr.pen.y -. q.y)]

/-- Specification: the canonical absolute form of a command with absolute parameters. -/
def canon (tr : Track K) (C : Char) (a : List K) : Option (Char × List K) :=
  match C, a with
  | 'M', [x, y] => some ('M', [x, y])
  | 'L', [x, y] => some ('L', [x, y])
  | 'H', [x] => some ('L', [x, tr.pen.y])
  | 'V', [y] => some ('L', [tr.pen.x, y])
  | 'C', [a, b, c, d, x, y] => some ('C', [a, b, c, d, x, y])
  | 'S', [c, d, x, y] => some ('C', tr.mirror tr.ctlS ++ [c, d, x, y])
  | 'Q', [a, b, x, y] => some ('Q', [a, b, x, y])
  | 'T', [x, y] => some ('Q', tr.mirror tr.ctlT ++ [x, y])
  | 'A', [rx, ry, rot, large, sweep, x, y] => some ('A', [rx, ry, rot, large, sweep, x, y])
  | 'Z', [] => some ('L', [tr.start.x, tr.start.y])
  | _, _ => none

/-- Specification: the end point of a canonical command. -/
def endPoint : List K → P K
  | [x, y] => ⟨x, y⟩
  | [_, _, x, y] => ⟨x, y⟩
  | [_, _, _, _, x, y] => ⟨x, y⟩
  | [_, _, _, _, _, x, y] => ⟨x, y⟩
  | _ => ⟨zero, zero⟩

/-- Specification: the last control point of a canonical curve. -/
def lastControl : List K → P K
  | [a, b, _, _] => ⟨a, b⟩
  | [_, _, c, d, _, _] => ⟨c, d⟩
  | _ => ⟨zero, zero⟩

/-- A rule for what `S` and `T` mirror after a command: from the command letter, its canonical parameters, the pen before
and after. -/
abbrev CtlRule (K : Type) := Char → List K → P K → P K → P K × P K

/-- Specification: the rule of SVG 1.1, 8.3.6-8.3.7. -/
def svgRule : CtlRule K := fun C full _ pen =>
  (if C = 'C' ∨ C = 'S' then lastControl full else pen, if C = 'Q' ∨ C = 'T' then lastControl full else pen)

/-- The rule the code follows: the control point only after an explicit `C` or `Q`, otherwise the *previous* pen position. -/
def codeRule : CtlRule K := fun C full old _ =>
  let v := if C = 'C' ∨ C = 'Q' then lastControl full else old
  (v, v)

/-- Specification: the position after a command. -/
def Track.next (rule : CtlRule K) (tr : Track K) (C : Char) (full : List K) : Track K :=
  let pen := endPoint full
  ⟨pen, if C = 'M' then pen else tr.start, (rule C full tr.pen pen).1, (rule C full tr.pen pen).2⟩

/-- Specification: absolute parameters of a command. -/
def absArgs (tr : Track K) (c : Char) (a : List K) : List K := if isRel c then toAbs tr.pen (upperC c) a else a

/-- Specification: the canonical absolute commands that a list of commands means. -/
def meaning (rule : CtlRule K) (tr : Track K) : List (Char × List K) → List (Char × List K)
  | [] => []
  | (c, a) :: cs =>
    match canon tr (upperC c) (absArgs tr c a) with
    | none => []
    | some o => o :: meaning rule (tr.next rule (upperC c) o.2) cs

/-! ## Lemmas -/

/-- A value made absolute as the parser does. -/
def PS.adjust (st : PS K) (p : Param) (v : K) : K :=
  match st.rel, p.axis with
  | true, some false => v +. st.pen.x
  | true, some true => v +. st.pen.y
  | _, _ => v

theorem value_ok {env : NumEnv K} (st : PS K) {p : Param} {t : Str} {v : K} (h : ReadAs env p.isInt t v) :
    st.value env p t = .ok (st.adjust p v) := by
  unfold PS.value
  unfold ReadAs at h
  cases hi : p.isInt with
  | true => rw [hi] at h; simp only [if_true] at h ⊢; rw [h]; rfl
  | false => rw [hi] at h; simp only [Bool.false_eq_true, if_false] at h ⊢; rw [h]; rfl

/-- Feeding all remaining parameters of a command. -/
theorem accept_all (env : NumEnv K) {c out : Char} {ps : List Param} (hd : pathDef c = some (out, ps)) (ts : List Tok) :
    ∀ (qs : List Param) (args : List Str) (vals : List K) (st : PS K), st.cmd = some c → st.expecting = false →
    qs ≠ [] → st.params.length + qs.length = ps.length → ps.drop st.params.length = qs →
    ReadArgs env (qs.map Param.isInt) args vals →
    ∃ st', PS.finish st c out (st.params ++ List.zipWith st.adjust qs vals) = .ok (st', [(out, st.complete c (st.params ++ List.zipWith st.adjust qs vals))]) ∧
      parseLoop env st ((args.map fun t => (t, false)) ++ ts) =
        ((out, st.complete c (st.params ++ List.zipWith st.adjust qs vals)) :: (parseLoop env st' ts).1, (parseLoop env st' ts).2) := by
  intro qs
  induction qs with
  | nil => intro args vals st _ _ h; exact absurd rfl h
  | cons q qs ih =>
    intro args vals st hcmd hex _ hlen hdrop hr
    cases args with
    | nil => exact absurd hr (by simp [ReadArgs])
    | cons t args =>
    cases vals with
    | nil => exact absurd hr (by simp [ReadArgs])
    | cons v vals =>
    simp only [List.map_cons, ReadArgs] at hr
    obtain ⟨hv, hr⟩ := hr
    have hlt : st.params.length < ps.length := by simp only [List.length_cons] at hlen; omega
    have hq : ps[st.params.length]? = some q := by
      have : (ps.drop st.params.length)[0]? = some q := by rw [hdrop]; rfl
      rwa [List.getElem?_drop, Nat.add_zero] at this
    have hval := value_ok st hv
    have hstep : st.step env (t, false) = (if (st.params ++ [st.adjust q v]).length = ps.length then
        st.finish c out (st.params ++ [st.adjust q v]) else
        .ok ({ st with params := st.params ++ [st.adjust q v] }, [])).map some := by
      have hacc : st.accept env c t = (if (st.params ++ [st.adjust q v]).length = ps.length then
          st.finish c out (st.params ++ [st.adjust q v]) else
          .ok ({ st with params := st.params ++ [st.adjust q v] }, [])) := by
        unfold PS.accept
        rw [hd]
        dsimp only
        rw [hq]
        dsimp only
        rw [hval]
        rfl
      rw [← hacc]
      unfold PS.step
      rw [hex]
      simp only [Bool.false_eq_true, if_false, hcmd]
    cases qs with
    | nil =>
      cases args with
      | cons t' args => exact absurd hr (by simp [ReadArgs])
      | nil =>
      cases vals with
      | cons v' vals => exact absurd hr (by simp [ReadArgs])
      | nil =>
      have hl : (st.params ++ [st.adjust q v]).length = ps.length := by
        simp only [List.length_append, List.length_cons, List.length_nil] at hlen ⊢; omega
      obtain ⟨st', h1, -⟩ := finish_ok st hd hl
      refine ⟨st', h1, ?_⟩
      rw [if_pos hl, h1] at hstep
      show parseLoop env st ((t, false) :: ts) = _
      rw [parseLoop, hstep]
      rfl
    | cons q' qs =>
      have hl : ¬ (st.params ++ [st.adjust q v]).length = ps.length := by
        simp only [List.length_append, List.length_cons, List.length_nil] at hlen ⊢; omega
      rw [if_neg hl] at hstep
      have hdrop' : ps.drop ({ st with params := st.params ++ [st.adjust q v] } : PS K).params.length = q' :: qs := by
        show ps.drop (st.params ++ [st.adjust q v]).length = _
        rw [List.length_append, List.length_singleton, ← List.drop_drop, hdrop]
        rfl
      obtain ⟨st', h1, h2⟩ := ih args vals { st with params := st.params ++ [st.adjust q v] } hcmd hex (by simp)
        (by show (st.params ++ [st.adjust q v]).length + _ = _
            simp only [List.length_append, List.length_cons, List.length_nil] at hlen ⊢; omega) hdrop' hr
      have hzip : (st.params ++ [st.adjust q v]) ++ List.zipWith st.adjust (q' :: qs) vals
          = st.params ++ List.zipWith st.adjust (q :: q' :: qs) (v :: vals) := by simp
      have hadj : (PS.adjust { st with params := st.params ++ [st.adjust q v] }) = st.adjust := rfl
      rw [hadj] at h1 h2
      have h1' : PS.finish st c out ((st.params ++ [st.adjust q v]) ++ List.zipWith st.adjust (q' :: qs) vals)
        = .ok (st', [(out, st.complete c ((st.params ++ [st.adjust q v]) ++ List.zipWith st.adjust (q' :: qs) vals))]) := h1
      rw [hzip] at h1'
      refine ⟨st', h1', ?_⟩
      show parseLoop env st ((t, false) :: ((args.map fun t => (t, false)) ++ ts)) = _
      rw [parseLoop, hstep]
      dsimp only [Except.map]
      rw [h2]
      show (_ :: _, _) = (_ :: _, _)
      have : PS.complete { st with params := st.params ++ [st.adjust q v] } = st.complete := rfl
      rw [this, ← hzip]

/-- The state of the parser between commands, described by the specification's position. -/
structure Rep (st : PS K) (tr : Track K) (prev : Option Char) : Prop where
  pen : st.pen = tr.pen
  start : st.moveto = tr.start
  ctlS : st.ctrl = tr.ctlS
  ctlT : st.ctrl = tr.ctlT
  cmd : st.cmd = prev.map upperC
  rel : ∀ p, prev = some p → st.rel = isRel p
  expecting : st.expecting = true
  params : st.params = []

theorem readArgs_len {env : NumEnv K} {ks : List Bool} {args : List Str} {vals : List K} (h : ReadArgs env ks args vals) :
    vals.length = ks.length := by
  induction ks generalizing args vals with
  | nil =>
    cases args <;> cases vals <;> simp_all [ReadArgs]
  | cons k ks ih =>
    cases args with
    | nil => simp [ReadArgs] at h
    | cons t args =>
      cases vals with
      | nil => simp [ReadArgs] at h
      | cons v vals => simp only [ReadArgs] at h; simp [ih h.2]

/-- The table of the parser agrees with the specification of the parameters. -/
theorem pathDef_kinds {c out : Char} {ps : List Param} (h : pathDef c = some (out, ps)) :
    ps.map Param.isInt = paramKinds c := by
  unfold pathDef at h
  split_ifs at h with h1 h2 h3 h4 h5 h6 h7 h8 h9 h10 <;>
    (rw [Option.some.injEq, Prod.mk.injEq] at h; obtain ⟨rfl, rfl⟩ := h; subst_vars; rfl)

/-- The parser's canonical parameters are those of the specification. -/
theorem complete_canon (st : PS K) (tr : Track K) {c : Char} (prev : Option Char) (hr : st.pen = tr.pen) (hs : st.moveto = tr.start)
    (h1 : st.ctrl = tr.ctlS) (h2 : st.ctrl = tr.ctlT) (hrel : st.rel = isRel c) {out : Char} {ps : List Param}
    (hd : pathDef (upperC c) = some (out, ps)) (vals : List K) (hv : vals.length = ps.length) :
    canon tr (upperC c) (absArgs tr c vals) = some (out, st.complete (upperC c) (List.zipWith st.adjust ps vals)) ∧
      (upperC c = 'M' ∨ upperC c = 'C' ∨ upperC c = 'Q' →
        st.complete (upperC c) (List.zipWith st.adjust ps vals) = List.zipWith st.adjust ps vals) := by
  have hadj : st.adjust = fun p v => match isRel c, p.axis with
      | true, some false => v +. tr.pen.x
      | true, some true => v +. tr.pen.y
      | _, _ => v := by
    funext p v; unfold PS.adjust; rw [hrel, hr]
  rw [hadj]
  unfold absArgs
  generalize upperC c = C at *
  unfold pathDef at hd
  split_ifs at hd with e1 e2 e3 e4 e5 e6 e7 e8 e9 e10 <;>
    (rw [Option.some.injEq, Prod.mk.injEq] at hd; obtain ⟨rfl, rfl⟩ := hd; subst_vars)
  · match vals, hv with
    | [x, y], _ => cases isRel c <;> simp [canon, toAbs, movePairs, PS.complete, pX, pY]
  · match vals, hv with
    | [x, y], _ => cases isRel c <;> simp [canon, toAbs, movePairs, PS.complete, pX, pY]
  · match vals, hv with
    | [x], _ => cases isRel c <;> simp [canon, toAbs, PS.complete, pX, hr]
  · match vals, hv with
    | [x], _ => cases isRel c <;> simp [canon, toAbs, PS.complete, pY, hr]
  · match vals, hv with
    | [x1, x2, x3, x4, x5, x6], _ => cases isRel c <;> simp [canon, toAbs, movePairs, PS.complete, pX, pY]
  · match vals, hv with
    | [x1, x2, x3, x4], _ => cases isRel c <;> simp [canon, toAbs, movePairs, PS.complete, pX, pY, hr, h1.symm, Track.mirror]
  · match vals, hv with
    | [x1, x2, x3, x4], _ => cases isRel c <;> simp [canon, toAbs, movePairs, PS.complete, pX, pY]
  · match vals, hv with
    | [x1, x2], _ => cases isRel c <;> simp [canon, toAbs, movePairs, PS.complete, pX, pY, hr, h2.symm, Track.mirror]
  · match vals, hv with
    | [x1, x2, x3, x4, x5, x6, x7], _ => cases isRel c <;> simp [canon, toAbs, PS.complete, pX, pY]
  · match vals, hv with
    | [], _ => cases isRel c <;> simp [canon, toAbs, movePairs, PS.complete, hs]

theorem last2_endPoint {o : Char × List K} (h : Canonical o) : last2 o.2 = some (endPoint o.2) := by
  obtain ⟨c, l⟩ := o
  unfold Canonical at h
  simp only at h ⊢
  unfold canonArity at h
  split at h <;> simp only [Option.some.injEq, reduceCtorEq] at h
  · match l, h with | [x, y], _ => rfl
  · match l, h with | [x, y], _ => rfl
  · match l, h with | [x1, x2, x3, x4, x5, x6], _ => rfl
  · match l, h with | [x1, x2, x3, x4], _ => rfl
  · match l, h with | [x1, x2, x3, x4, x5, x6, x7], _ => rfl

/-- The state after a completed command represents the next position. -/
theorem rep_next (st st' : PS K) (tr : Track K) {c : Char} (hr : st.pen = tr.pen) (hs : st.moveto = tr.start)
    (hrel : st.rel = isRel c) (hcmd : st.cmd = some (upperC c)) {out : Char} {ps : List Param}
    (hd : pathDef (upperC c) = some (out, ps)) (params full : List K) (hp : params.length = ps.length)
    (hfull : full = st.complete (upperC c) params)
    (hmcq : upperC c = 'M' ∨ upperC c = 'C' ∨ upperC c = 'Q' → full = params)
    (hf : st.finish (upperC c) out params = .ok (st', [(out, full)])) :
    Rep st' (tr.next codeRule (upperC c) full) (some c) := by
  obtain ⟨st'', g1, g2, g3, g4, g5, g6, g7, g8, g9, g10, g11⟩ := finish_ok st hd hp
  rw [hf] at g1
  have : st' = st'' := congrArg Prod.fst (Except.ok.inj g1)
  subst this
  have hcan : Canonical (out, full) := by rw [hfull]; exact g2
  have hpen : st'.pen = endPoint full := by
    rw [← hfull, last2_endPoint hcan, Option.some.injEq] at g9; exact g9
  have hctl : st'.ctrl = if upperC c = 'C' ∨ upperC c = 'Q' then lastControl full else tr.pen := by
    by_cases hcq : upperC c = 'C' ∨ upperC c = 'Q'
    · rw [if_pos hcq]
      have h10 := g10 hcq
      rw [← hmcq (Or.inr hcq)] at h10
      have : last4 full = some (lastControl full) := by
        rcases hcq with h | h
        · rw [h] at hd
          have hd2 := hd
          simp only [pathDef, Char.reduceEq, if_false, if_true, Option.some.injEq, Prod.mk.injEq] at hd2
          obtain ⟨rfl, -⟩ := hd2
          have hl : full.length = 6 := (Option.some.inj (show some 6 = some full.length from hcan)).symm
          match full, hl with | [x1, x2, x3, x4, x5, x6], _ => rfl
        · rw [h] at hd
          have hd2 := hd
          simp only [pathDef, Char.reduceEq, if_false, if_true, Option.some.injEq, Prod.mk.injEq] at hd2
          obtain ⟨rfl, -⟩ := hd2
          have hl : full.length = 4 := (Option.some.inj (show some 4 = some full.length from hcan)).symm
          match full, hl with | [x1, x2, x3, x4], _ => rfl
      rw [this, Option.some.injEq] at h10
      exact h10
    · rw [if_neg hcq, g11 hcq, hr]
  refine ⟨hpen, ?_, ?_, ?_, ?_, ?_, g4, g5⟩
  · show _ = if upperC c = 'M' then endPoint full else tr.start
    by_cases hM : upperC c = 'M'
    · rw [if_pos hM]
      have := g7 hM
      rw [← hmcq (Or.inl hM), last2_endPoint hcan, Option.some.injEq] at this
      exact this
    · rw [if_neg hM, g8 hM, hs]
  · exact hctl
  · exact hctl
  · rw [g3, hcmd]; rfl
  · intro p hp; rw [Option.some.injEq] at hp; subst hp; rw [g6, hrel]

theorem isRel_implied (p : Char) : isRel (implied p) = isRel p := by
  unfold implied
  split
  · rename_i h; subst h; decide +kernel
  · split
    · rename_i h; subst h; decide +kernel
    · rfl

theorem upperC_implied (p : Char) : upperC (implied p) = if upperC p = 'M' then 'L' else upperC p := by
  have key : upperC p = 'M' → p = 'M' ∨ p = 'm' := by
    unfold upperC
    split
    · rename_i h
      intro h1
      right
      have hb : ∀ n : Nat, n < 123 → 97 ≤ n → Char.ofNat (n - 32) = 'M' → n = 109 := by decide +kernel
      have h3 : p.toNat = 109 := hb p.toNat (Nat.lt_succ_of_le h.2) h.1 h1
      have : Char.ofNat p.toNat = Char.ofNat 109 := by rw [h3]
      rw [Char.ofNat_toNat] at this
      exact this
    · intro h; exact Or.inl h
  unfold implied
  split
  · rename_i h; subst h; decide +kernel
  · rename_i h1
    split
    · rename_i h; subst h; decide +kernel
    · rename_i h2
      rw [if_neg]
      intro h
      rcases key h with h | h
      · exact h1 h
      · exact h2 h

theorem pathDef_of_ne_nil {c : Char} (h : paramKinds c ≠ []) : ∃ out ps, pathDef c = some (out, ps) ∧ ps ≠ [] := by
  unfold paramKinds at h
  split at h
  all_goals first
    | exact ⟨_, _, rfl, by simp⟩
    | exact absurd rfl h

/-- The parser computes the meaning of the commands (with the code's rule for `S` and `T`). -/
theorem parse_meaning (env : NumEnv K) {p : Option Char} {ts : List Tok} {cs : List (Char × List K)} (h : Reads env p ts cs) :
    ∀ (st : PS K) (tr : Track K), Rep st tr p → (p = none → StartsM cs) →
      parseLoop env st ts = (meaning codeRule tr cs, none) := by
  induction h with
  | nil p => intro st tr _ _; rfl
  | explicit p c args vals ts cs hc hargs _ ih =>
    intro st tr hrep hstart
    obtain ⟨out, ps, hd⟩ := upperC_drawto hc
    have hvl : vals.length = ps.length := by rw [readArgs_len hargs, ← pathDef_kinds hd, List.length_map]
    have hstep : st.step env ([c], true) = (st.command env c).map some := by
      unfold PS.step
      rw [hrep.expecting]
      simp only [if_true]
      rw [if_neg]
      rintro ⟨h1, h2⟩
      rw [hrep.cmd] at h1
      cases p with
      | some p => cases h1
      | none => exact h2 (hstart rfl c vals rfl)
    set st1 : PS K := { st with rel := isRel c, cmd := some (upperC c), expecting := false } with hst1
    have hcommand : st.command env c = if upperC c = 'Z' then st1.accept env 'Z' [] else .ok (st1, []) := by
      unfold PS.command
      dsimp only
      rw [hd]
      rfl
    obtain ⟨hcan, hmcq⟩ := complete_canon st1 tr p hrep.pen hrep.start hrep.ctlS hrep.ctlT rfl hd vals hvl
    have hzl : (List.zipWith st1.adjust ps vals).length = ps.length := by rw [List.length_zipWith, hvl, min_self]
    rw [meaning, hcan]
    dsimp only
    show parseLoop env st (([c], true) :: ((args.map fun t => (t, false)) ++ ts)) = _
    by_cases hz : upperC c = 'Z'
    · rw [if_pos hz] at hcommand
      rw [hz] at hd hargs
      have hd0 : pathDef 'Z' = some ('L', []) := rfl
      rw [hd0, Option.some.injEq, Prod.mk.injEq] at hd
      obtain ⟨rfl, rfl⟩ := hd
      have hargs0 : args = [] := by
        cases args with
        | nil => rfl
        | cons a args => cases vals <;> simp [paramKinds, ReadArgs] at hargs
      subst hargs0
      have hacc : st1.accept env 'Z' [] = st1.finish 'Z' 'L' [] := by
        unfold PS.accept
        rw [hd0]
        have hp : st1.params = [] := hrep.params
        simp only [List.getElem?_nil, pure_bind, hp, List.length_nil, if_true]
      have hz2 : List.zipWith st1.adjust [] vals = [] := rfl
      obtain ⟨st', hf, -⟩ := finish_ok st1 hd0 (params := []) rfl
      have hrep' := rep_next st1 st' tr (c := c) (ps := []) (out := 'L') hrep.pen hrep.start rfl rfl (by rw [hz]; rfl) [] _ rfl rfl
        (by rw [hz]; rintro (h | h | h) <;> cases h) (by rw [hz]; exact hf)
      rw [parseLoop, hstep, hcommand, hacc, hf]
      dsimp only [Except.map]
      rw [List.map_nil, List.nil_append, ih st' _ hrep' (fun h => by cases h), hz2, hz]
      rfl
    · rw [if_neg hz] at hcommand
      have hpsne : ps ≠ [] := by
        rintro rfl
        rcases pathDef_cases hd with h | h | h | h | h | h | h | h | h | h <;> simp_all
      have hp1 : st1.params = [] := hrep.params
      obtain ⟨st', hf, hloop⟩ := accept_all env hd ts ps args vals st1 rfl rfl hpsne (by rw [hp1]; simp)
        (by rw [hp1]; rfl) (by rw [pathDef_kinds hd]; exact hargs)
      rw [hp1, List.nil_append] at hf hloop
      have hrep' := rep_next st1 st' tr (c := c) hrep.pen hrep.start rfl rfl hd _ _ hzl rfl hmcq hf
      rw [parseLoop, hstep, hcommand]
      dsimp only [Except.map]
      rw [hloop, ih st' _ hrep' (fun h => by cases h)]
      rfl
  | implicit p args vals ts cs hpd hz hargs _ ih =>
    intro st tr hrep _
    have hC := upperC_implied p
    have hkne : paramKinds (upperC (implied p)) ≠ [] := by
      have h' : ∀ p ∈ cmdLetters, upperC p ≠ 'Z' → paramKinds (upperC (implied p)) ≠ [] := by decide +kernel
      exact h' p hpd hz
    obtain ⟨out, ps, hd, hpsne⟩ := pathDef_of_ne_nil hkne
    have hvl : vals.length = ps.length := by rw [readArgs_len hargs, ← pathDef_kinds hd, List.length_map]
    set st1 : PS K := { st with cmd := some (upperC (implied p)), expecting := false } with hst1
    have hrel : st1.rel = isRel (implied p) := by
      rw [isRel_implied]; exact hrep.rel p rfl
    obtain ⟨hcan, hmcq⟩ := complete_canon st1 tr (some p) hrep.pen hrep.start hrep.ctlS hrep.ctlT hrel hd vals hvl
    have hzl : (List.zipWith st1.adjust ps vals).length = ps.length := by rw [List.length_zipWith, hvl, min_self]
    have hp1 : st1.params = [] := hrep.params
    obtain ⟨st', hf, hloop⟩ := accept_all env hd ts ps args vals st1 rfl rfl hpsne (by rw [hp1]; simp)
      (by rw [hp1]; rfl) (by rw [pathDef_kinds hd]; exact hargs)
    rw [hp1, List.nil_append] at hf hloop
    have hrep' := rep_next st1 st' tr hrep.pen hrep.start hrel rfl hd _ _ hzl rfl hmcq hf
    -- the first parameter switches the parser to the implied command
    have hsame : parseLoop env st ((args.map fun t => (t, false)) ++ ts)
        = parseLoop env st1 ((args.map fun t => (t, false)) ++ ts) := by
      cases args with
      | nil =>
        have := readArgs_len hargs
        cases hk : paramKinds (upperC (implied p)) with
        | nil => exact absurd hk hkne
        | cons k ks => rw [hk] at hargs; simp [ReadArgs] at hargs
      | cons t args =>
        show parseLoop env st ((t, false) :: _) = parseLoop env st1 ((t, false) :: _)
        have : st.step env (t, false) = st1.step env (t, false) := by
          have hcmd := hrep.cmd
          unfold PS.step
          rw [hrep.expecting]
          simp only [if_true, Bool.false_eq_true, if_false, hst1]
          rw [hcmd]
          simp only [Option.map_some, ← hC]
        rw [parseLoop, parseLoop, this]
    rw [hsame, hloop, ih st' _ hrep' (fun h => by cases h), meaning, hcan]

end
end Verif.Svg
