import Verif.Svg.Path

/-!
# C68: path data parsing
-/

set_option linter.unusedSectionVars false

namespace Verif.Svg
open Verif PyFloat PyTrig Geom

variable {K : Type} [PyFloat K]

/-! ## Specification -/

/-- Specification: number of parameters of a canonical command. -/
def canonArity : Char → Option Nat
  | 'M' => some 2
  | 'L' => some 2
  | 'C' => some 6
  | 'Q' => some 4
  | 'A' => some 7
  | _ => none

/-- Specification: a canonical path component. -/
def Canonical (o : Char × List K) : Prop := canonArity o.1 = some o.2.length

/-- Specification: the text of a token is not a number (as a float, or as an integer where an arc flag is expected). -/
def NotNumber (t : Str) : Prop := readDec t = none ∨ readInt t = none

/-! ## Lemmas -/

theorem last2_isSome {l : List K} (h : 2 ≤ l.length) : ∃ p, last2 l = some p := by
  unfold last2
  have : 2 ≤ l.reverse.length := by simpa using h
  match hl : l.reverse, this with
  | y :: x :: _, _ => exact ⟨_, rfl⟩

theorem last4_isSome {l : List K} (h : 4 ≤ l.length) : ∃ p, last4 l = some p := by
  unfold last4
  have : 4 ≤ l.reverse.length := by simpa using h
  match hl : l.reverse, this with
  | _ :: _ :: b :: a :: _, _ => exact ⟨_, rfl⟩

/-- The commands of the table. -/
theorem pathDef_cases {c : Char} {out : Char} {ps : List Param} (h : pathDef c = some (out, ps)) :
    (c = 'M' ∧ out = 'M' ∧ ps.length = 2) ∨ (c = 'L' ∧ out = 'L' ∧ ps.length = 2) ∨
    (c = 'H' ∧ out = 'L' ∧ ps.length = 1) ∨ (c = 'V' ∧ out = 'L' ∧ ps.length = 1) ∨
    (c = 'C' ∧ out = 'C' ∧ ps.length = 6) ∨ (c = 'S' ∧ out = 'C' ∧ ps.length = 4) ∨
    (c = 'Q' ∧ out = 'Q' ∧ ps.length = 4) ∨ (c = 'T' ∧ out = 'Q' ∧ ps.length = 2) ∨
    (c = 'A' ∧ out = 'A' ∧ ps.length = 7) ∨ (c = 'Z' ∧ out = 'L' ∧ ps.length = 0) := by
  unfold pathDef at h
  split_ifs at h with h1 h2 h3 h4 h5 h6 h7 h8 h9 h10 <;>
    (rw [Option.some.injEq, Prod.mk.injEq] at h; obtain ⟨rfl, rfl⟩ := h; simp_all)

theorem finish_ok (st : PS K) {c out : Char} {ps : List Param} (h : pathDef c = some (out, ps)) {params : List K}
    (hl : params.length = ps.length) :
    ∃ st', st.finish c out params = .ok (st', [(out, st.complete c params)]) ∧ Canonical (out, st.complete c params) ∧
      st'.cmd = st.cmd ∧ st'.expecting = true ∧ st'.params = [] ∧ st'.rel = st.rel ∧
      (c = 'M' → some st'.moveto = last2 params) ∧ (c ≠ 'M' → st'.moveto = st.moveto) ∧
      some st'.pen = last2 (st.complete c params) ∧
      (c = 'C' ∨ c = 'Q' → some st'.ctrl = last4 params) ∧ (¬ (c = 'C' ∨ c = 'Q') → st'.ctrl = st.pen) := by
  have hc : Canonical (out, st.complete c params) := by
    unfold Canonical PS.complete
    rcases pathDef_cases h with ⟨rfl, rfl, hp⟩ | ⟨rfl, rfl, hp⟩ | ⟨rfl, rfl, hp⟩ | ⟨rfl, rfl, hp⟩ | ⟨rfl, rfl, hp⟩ |
      ⟨rfl, rfl, hp⟩ | ⟨rfl, rfl, hp⟩ | ⟨rfl, rfl, hp⟩ | ⟨rfl, rfl, hp⟩ | ⟨rfl, rfl, hp⟩ <;>
      simp [canonArity, hl, hp]
  have h2 : 2 ≤ (st.complete c params).length := by
    unfold Canonical at hc
    unfold canonArity at hc
    split at hc <;> simp_all <;> omega
  have h4 : c = 'C' ∨ c = 'Q' → 4 ≤ params.length := by
    rintro (rfl | rfl) <;> (rcases pathDef_cases h with h | h | h | h | h | h | h | h | h | h <;> simp_all)
  have hcq : c = 'C' ∨ c = 'Q' → st.complete c params = params := by
    rintro (rfl | rfl) <;> simp [PS.complete]
  obtain ⟨p, hp⟩ := last2_isSome h2
  obtain ⟨mv, hmv⟩ : ∃ mv, (if c = 'M' then last2 params else some st.moveto) = some mv := by
    split
    · rename_i hM; subst hM
      refine last2_isSome ?_
      rcases pathDef_cases h with h | h | h | h | h | h | h | h | h | h <;> simp_all
    · exact ⟨_, rfl⟩
  obtain ⟨ctl, hctl⟩ : ∃ ctl, (if c = 'C' ∨ c = 'Q' then last4 (st.complete c params) else some st.pen) = some ctl := by
    split
    · rename_i hM
      rw [hcq hM]
      exact last4_isSome (h4 hM)
    · exact ⟨_, rfl⟩
  unfold PS.finish
  rw [hmv]
  dsimp only
  rw [hctl, hp]
  refine ⟨_, rfl, hc, rfl, rfl, rfl, rfl, ?_, ?_, rfl, ?_, ?_⟩
  · intro hM; rw [if_pos hM] at hmv; exact hmv.symm
  · intro hM; rw [if_neg hM, Option.some.injEq] at hmv; exact hmv.symm
  · intro hM; rw [if_pos hM, hcq hM] at hctl; exact hctl.symm
  · intro hM; rw [if_neg hM, Option.some.injEq] at hctl; exact hctl.symm

theorem value_err {env : NumEnv K} {st : PS K} {p : Param} {t : Str} {e : PyErr} (h : st.value env p t = .error e) :
    e = .valueError ∧ NotNumber t := by
  unfold PS.value at h
  unfold NotNumber
  cases hi : p.isInt with
  | true =>
    rw [hi] at h
    simp only [if_true] at h
    unfold intVal at h
    cases hr : readInt t with
    | none => rw [hr] at h; cases h; exact ⟨rfl, Or.inr rfl⟩
    | some n => rw [hr] at h; cases h
  | false =>
    rw [hi] at h
    simp only [Bool.false_eq_true, if_false] at h
    unfold NumEnv.float at h
    cases hr : readDec t with
    | none => rw [hr] at h; cases h; exact ⟨rfl, Or.inl rfl⟩
    | some n => rw [hr] at h; cases h

/-- State invariant while parsing: the parameters collected fit the current command. -/
structure PS.Inv (st : PS K) : Prop where
  known : ∀ c, st.cmd = some c → ∃ out ps, pathDef c = some (out, ps) ∧
    (st.expecting = true → st.params = []) ∧ (st.expecting = false → st.params.length < ps.length)
  start : st.cmd = none → st.expecting = true ∧ st.params = []

/-- What one accepted number does. -/
theorem accept_spec (env : NumEnv K) (st : PS K) {c : Char} (hcmd : st.cmd = some c) (hex : st.expecting = false)
    {out : Char} {ps : List Param} (hd : pathDef c = some (out, ps)) (hlen : st.params.length < ps.length ∨ ps = [] ∧ st.params = []) (t : Str) :
    (∃ e, st.accept env c t = .error e ∧ e = .valueError ∧ NotNumber t) ∨
    (∃ st' o, st.accept env c t = .ok (st', o) ∧ st'.Inv ∧ st'.cmd = some c ∧ (∀ x ∈ o, Canonical x) ∧
      (∀ x ∈ o, x.1 = out)) := by
  unfold PS.accept
  rw [hd]
  dsimp only
  have hfin : ∀ params : List K, params.length = ps.length →
      ∃ st' o, st.finish c out params = .ok (st', o) ∧ st'.Inv ∧ st'.cmd = some c ∧ (∀ x ∈ o, Canonical x) ∧
        (∀ x ∈ o, x.1 = out) := by
    intro params hl
    obtain ⟨st', h1, h2, h3, h4, h5, -⟩ := finish_ok st hd hl
    refine ⟨st', _, h1, ⟨?_, ?_⟩, h3.trans hcmd, ?_, ?_⟩
    · intro c' hc'
      have : c' = c := by
        rw [h3.trans hcmd] at hc'; exact (Option.some.inj hc').symm
      subst this
      exact ⟨out, ps, hd, fun _ => h5, fun h => by rw [h4] at h; cases h⟩
    · intro hn; rw [h3, hcmd] at hn; cases hn
    · simp only [List.mem_singleton]; rintro x rfl; exact h2
    · simp only [List.mem_singleton]; rintro x rfl; rfl
  rcases hlen with hlt | ⟨h1, h2⟩
  · obtain ⟨p, hp⟩ : ∃ p, ps[st.params.length]? = some p := ⟨_, List.getElem?_eq_getElem hlt⟩
    rw [hp]
    dsimp only
    cases hv : st.value env p t with
    | error e =>
      obtain ⟨h1, h2⟩ := value_err hv
      exact Or.inl ⟨e, rfl, h1, h2⟩
    | ok v =>
      right
      show ∃ st' o, (if (st.params ++ [v]).length = ps.length then _ else _) = Except.ok (st', o) ∧ _
      by_cases hl : (st.params ++ [v]).length = ps.length
      · rw [if_pos hl]
        exact hfin _ hl
      · rw [if_neg hl]
        refine ⟨_, _, rfl, ⟨?_, ?_⟩, hcmd, by simp, by simp⟩
        · intro c' hc'
          have : c' = c := by
            have : some c = some c' := hcmd.symm.trans hc'
            exact (Option.some.inj this).symm
          subst this
          refine ⟨out, ps, hd, fun h => ?_, fun _ => ?_⟩
          · have : st.expecting = true := h
            rw [hex] at this; cases this
          · show (st.params ++ [v]).length < _
            simp only [List.length_append, List.length_singleton] at hl ⊢
            omega
        · intro hn
          have : st.cmd = none := hn
          rw [hcmd] at this; cases this
  · right
    subst h1
    rw [h2]
    simp only [List.getElem?_nil, List.length_nil, pure_bind, if_true]
    exact hfin _ rfl

/-- Specification: the command letters of SVG path data (SVG 1.1, 8.3.9). -/
def cmdLetters : List Char := ['M', 'm', 'Z', 'z', 'L', 'l', 'H', 'h', 'V', 'v', 'C', 'c', 'S', 's', 'Q', 'q', 'T', 't', 'A', 'a']

/-- Specification: what may separate two items of path data: white space or a comma (SVG 1.1, 8.3.9). -/
def separators : List Char := [',', ' ', '\t', '\n', '\r']

theorem drawto_cmd {c : Char} (h : c ∈ drawto) : c ∈ cmdLetters := by
  have h' : ∀ c ∈ drawto, c ∈ cmdLetters := by decide +kernel
  exact h' c h

theorem sep_wsp {c : Char} (h : c ∈ separators) : c ∈ commaWsp := by
  have h' : ∀ c ∈ separators, c ∈ commaWsp := by decide +kernel
  exact h' c h

theorem upperC_drawto {t : Char} (h : t ∈ cmdLetters) : ∃ out ps, pathDef (upperC t) = some (out, ps) := by
  have h' : ∀ t ∈ cmdLetters, (pathDef (upperC t)).isSome = true := by decide +kernel
  have := h' t h
  rw [Option.isSome_iff_exists] at this
  obtain ⟨⟨out, ps⟩, h⟩ := this
  exact ⟨out, ps, h⟩

/-- Tokens as the tokenizer makes them: a command token is one drawing letter. -/
def GoodTok (t : Tok) : Prop := t.2 = true → ∃ c ∈ cmdLetters, t.1 = [c]

theorem flush_good (s : Str) : ∀ t ∈ flush s, GoodTok t := by
  unfold flush GoodTok
  split <;> simp

theorem tokLoop_good (s : Str) : ∀ (f : Bool) (e : Str), ∀ t ∈ tokLoop f e s, GoodTok t := by
  induction s with
  | nil => intro f e; exact flush_good e
  | cons c s ih =>
    intro f e t ht
    unfold tokLoop at ht
    split_ifs at ht with h1 h2 h3 h4 h5 h6 h7
    · exact ih _ _ t ht
    · rcases List.mem_cons.1 ht with rfl | ht
      · intro h; cases h
      · exact ih _ _ t ht
    · rcases List.mem_append.1 ht with ht | ht
      · exact flush_good e t ht
      · rcases List.mem_cons.1 ht with rfl | ht
        · exact fun _ => ⟨c, drawto_cmd h3, rfl⟩
        · exact ih _ _ t ht
    · rcases List.mem_cons.1 ht with rfl | ht
      · intro h; cases h
      · exact ih _ _ t ht
    · exact ih _ _ t ht
    · rcases List.mem_cons.1 ht with rfl | ht
      · intro h; cases h
      · exact ih _ _ t ht
    · exact ih _ _ t ht
    · exact ih _ _ t ht

theorem tokenize_good (s : Str) : ∀ t ∈ tokenize s, GoodTok t := tokLoop_good s false []

/-- What one token does. -/
theorem step_spec (env : NumEnv K) (st : PS K) (hi : st.Inv) (t : Tok) (ht : GoodTok t) :
    (∃ e, st.step env t = .error e ∧ e = .valueError ∧ t.2 = false ∧ NotNumber t.1) ∨ st.step env t = .ok none ∨
    (∃ st' o, st.step env t = .ok (some (st', o)) ∧ st'.Inv ∧ (∀ x ∈ o, Canonical x) ∧
      (st.cmd = none → o = [] ∧ st'.cmd = some 'M' ∧ st'.expecting = false) ∧
      (st.cmd = some 'M' → st.expecting = false → st'.cmd = some 'M' ∧ ∀ x ∈ o, x.1 = 'M')) := by
  obtain ⟨txt, isC⟩ := t
  unfold PS.step
  cases hx : st.expecting with
  | true =>
    simp only [if_true]
    cases isC with
    | true =>
      obtain ⟨c, hc, hcs⟩ := ht rfl
      have hcs : txt = [c] := hcs
      subst hcs
      dsimp only
      by_cases hbreak : st.cmd = none ∧ upperC c ≠ 'M'
      · rw [if_pos hbreak]; exact Or.inr (Or.inl rfl)
      · rw [if_neg hbreak]
        obtain ⟨out, ps, hd⟩ := upperC_drawto hc
        have hp : st.params = [] := by
          cases hcmd : st.cmd with
          | none => exact (hi.start hcmd).2
          | some c0 => obtain ⟨-, -, -, h, -⟩ := hi.known c0 hcmd; exact h hx
        unfold PS.command
        dsimp only
        rw [hd]
        dsimp only
        by_cases hz : upperC c = 'Z'
        · rw [if_pos hz]
          have hd' : pathDef 'Z' = some ('L', []) := rfl
          rcases accept_spec env { st with rel := decide (c ≠ 'Z'), cmd := some 'Z', expecting := false } (c := 'Z') rfl rfl
            hd' (Or.inr ⟨rfl, hp⟩) [] with h | ⟨st', o, h1, h2, h3, h4, h5⟩
          · exfalso
            obtain ⟨e, he, -⟩ := h
            unfold PS.accept at he
            rw [hd', hp] at he
            obtain ⟨st', hf, -⟩ := finish_ok { st with rel := decide (c ≠ 'Z'), cmd := some 'Z', expecting := false } hd'
              (params := []) rfl
            simp only [List.length_nil, List.getElem?_nil] at he
            have : (PS.finish { st with rel := decide (c ≠ 'Z'), cmd := some 'Z', expecting := false } 'Z' 'L' []) = .error e := by
              rw [← hp] at he ⊢
              simpa [hp] using he
            rw [hf] at this; cases this
          · right; right
            rw [hz, h1]
            refine ⟨st', o, rfl, h2, h4, ?_, ?_⟩
            · intro hn
              exact absurd ⟨hn, by rw [hz]; decide⟩ hbreak
            · intro _ h; cases h
        · rw [if_neg hz]
          right; right
          refine ⟨_, _, rfl, ⟨?_, ?_⟩, by simp, ?_, ?_⟩
          · intro c' hc'
            have : upperC c = c' := by simpa using hc'
            subst this
            refine ⟨out, ps, hd, fun h => ?_, fun _ => ?_⟩
            · cases h
            · show st.params.length < _
              rw [hp]
              rcases pathDef_cases hd with h | h | h | h | h | h | h | h | h | h <;> simp_all
          · intro hn; cases hn
          · intro hn
            refine ⟨rfl, ?_, rfl⟩
            by_contra hne
            exact hbreak ⟨hn, fun h => hne (by show some (upperC c) = some 'M'; rw [h])⟩
          · intro _ h; cases h
    | false =>
      dsimp only
      cases hcmd : st.cmd with
      | none => exact Or.inr (Or.inl rfl)
      | some c =>
        dsimp only
        obtain ⟨out0, ps0, hd0, hp, -⟩ := hi.known c hcmd
        have hp := hp hx
        obtain ⟨out, ps, hd⟩ : ∃ out ps, pathDef (if c = 'M' then 'L' else c) = some (out, ps) := by
          split
          · exact ⟨_, _, rfl⟩
          · exact ⟨_, _, hd0⟩
        have hl : ([] : List K).length < ps.length ∨ ps = [] ∧ st.params = [] := by
          cases ps with
          | nil => exact Or.inr ⟨rfl, hp⟩
          | cons a ps => exact Or.inl (by simp)
        rcases accept_spec env { st with cmd := some (if c = 'M' then 'L' else c), expecting := false } rfl rfl hd
          (by show st.params.length < _ ∨ _; rw [hp]; rw [hp] at hl; exact hl) txt with
          ⟨e, h1, h2, h3⟩ | ⟨st', o, h1, h2, h3, h4, h5⟩
        · left
          refine ⟨e, ?_, h2, by trivial, h3⟩
          rw [h1]; rfl
        · right; right
          rw [h1]
          exact ⟨st', o, rfl, h2, h4, fun h => (by cases h), fun _ h => (by cases h)⟩
  | false =>
    simp only [Bool.false_eq_true, if_false]
    cases isC with
    | true => exact Or.inr (Or.inl rfl)
    | false =>
      simp only [Bool.false_eq_true, if_false]
      cases hcmd : st.cmd with
      | none => exact Or.inr (Or.inl rfl)
      | some c =>
        dsimp only
        obtain ⟨out, ps, hd, -, hp⟩ := hi.known c hcmd
        rcases accept_spec env st hcmd hx hd (Or.inl (hp hx)) txt with ⟨e, h1, h2, h3⟩ | ⟨st', o, h1, h2, h3, h4, h5⟩
        · left
          refine ⟨e, ?_, h2, by trivial, h3⟩
          rw [h1]; rfl
        · right; right
          rw [h1]
          refine ⟨st', o, rfl, h2, h4, fun h => (by cases h), fun h _ => ?_⟩
          have hcM : c = 'M' := by simpa using h
          subst hcM
          have : out = 'M' := by
            rcases pathDef_cases hd with h | h | h | h | h | h | h | h | h | h <;> simp_all
          subst this
          exact ⟨h3, h5⟩

theorem init_inv : (PS.init : PS K).Inv := ⟨fun c h => (by cases h), fun _ => ⟨rfl, rfl⟩⟩

theorem parseLoop_spec (env : NumEnv K) (ts : List Tok) (hts : ∀ t ∈ ts, GoodTok t) (st : PS K) (hi : st.Inv) :
    (∀ x ∈ (parseLoop env st ts).1, Canonical x) ∧
    (∀ e, (parseLoop env st ts).2 = some e → e = .valueError ∧ ∃ t ∈ ts, t.2 = false ∧ NotNumber t.1) ∧
    (st.cmd = none ∨ st.cmd = some 'M' ∧ st.expecting = false →
      ∀ x, (parseLoop env st ts).1.head? = some x → x.1 = 'M') := by
  induction ts generalizing st with
  | nil => simp [parseLoop]
  | cons t ts ih =>
    rcases step_spec env st hi t (hts t (by simp)) with ⟨e, h, h1, h2, h3⟩ | h | ⟨st', o, h, h1, h2, h3, h4⟩
    · unfold parseLoop; rw [h]
      refine ⟨by simp, ?_, by simp⟩
      intro e' he'
      have : e = e' := by simpa using he'
      subst this
      exact ⟨h1, t, by simp, h2, h3⟩
    · unfold parseLoop; rw [h]
      simp
    · unfold parseLoop; rw [h]
      dsimp only
      obtain ⟨i1, i2, i3⟩ := ih (fun x hx => hts x (by simp [hx])) st' h1
      refine ⟨?_, ?_, ?_⟩
      · intro x hx
        rcases List.mem_append.1 hx with hx | hx
        · exact h2 x hx
        · exact i1 x hx
      · intro e he
        obtain ⟨h5, t', h6, h7⟩ := i2 e he
        exact ⟨h5, t', by simp [h6], h7⟩
      · rintro (hn | ⟨hn, hx⟩) x hhead
        · obtain ⟨ho, hc, hex⟩ := h3 hn
          rw [ho, List.nil_append] at hhead
          exact i3 (Or.inr ⟨hc, hex⟩) x hhead
        · obtain ⟨hc, ho⟩ := h4 hn hx
          cases o with
          | cons y o =>
            have : y = x := by simpa using hhead
            subst this
            exact ho y (by simp)
          | nil =>
            rw [List.nil_append] at hhead
            refine i3 (Or.inr ⟨hc, ?_⟩) x hhead
            -- nothing was yielded, so the command is still incomplete
            by_contra hne
            have hne : st'.expecting = true := by simpa using hne
            unfold PS.step at h
            rw [hx] at h
            simp only [Bool.false_eq_true, if_false] at h
            split at h
            · cases h
            · rw [hn] at h
              dsimp only at h
              have hd : pathDef 'M' = some ('M', [pX, pY]) := rfl
              unfold PS.accept at h
              rw [hd] at h
              dsimp only at h
              obtain ⟨out, ps, hd', -, hp⟩ := hi.known 'M' hn
              have hp := hp hx
              rw [hd, Option.some.injEq, Prod.mk.injEq] at hd'
              obtain ⟨rfl, rfl⟩ := hd'
              rw [List.getElem?_eq_getElem hp] at h
              dsimp only at h
              cases hv : st.value env ([pX, pY][st.params.length]'hp) t.1 with
              | error e => rw [hv] at h; cases h
              | ok v =>
                rw [hv] at h
                have h' : (if (st.params ++ [v]).length = [pX, pY].length then st.finish 'M' 'M' (st.params ++ [v])
                    else Except.ok ({ st with params := st.params ++ [v] }, [])) = Except.ok (st', []) := by
                  cases hq : (if (st.params ++ [v]).length = [pX, pY].length then st.finish 'M' 'M' (st.params ++ [v])
                    else Except.ok ({ st with params := st.params ++ [v] }, [])) with
                  | error e =>
                    exfalso
                    have h2 : Except.map some (if (st.params ++ [v]).length = [pX, pY].length then
                      st.finish 'M' 'M' (st.params ++ [v])
                      else Except.ok ({ st with params := st.params ++ [v] }, [])) = Except.ok (some (st', [])) := h
                    rw [hq] at h2; cases h2
                  | ok r =>
                    have h2 : Except.map some (if (st.params ++ [v]).length = [pX, pY].length then
                      st.finish 'M' 'M' (st.params ++ [v])
                      else Except.ok ({ st with params := st.params ++ [v] }, [])) = Except.ok (some (st', [])) := h
                    rw [hq] at h2
                    have : some r = some (st', []) := Except.ok.inj h2
                    rw [Option.some.inj this]
                split at h'
                · rename_i hl
                  obtain ⟨st'', hf, -⟩ := finish_ok st hd hl
                  rw [hf] at h'
                  have := congrArg Prod.snd (Except.ok.inj h')
                  simp at this
                · have := congrArg Prod.fst (Except.ok.inj h')
                  dsimp only at this
                  rw [← this] at hne
                  have : st.expecting = true := hne
                  rw [hx] at this; cases this

/-- **C68**, for every text: everything `parse_path` yields is a canonical command (`M`, `L`, `C`, `Q`, `A`) with the right
number of parameters, the first one is `M`, and the only exception it can raise is `ValueError`, and that only if the text
contains a number token that is not a number.  Missing: the claim says no exception at all (`C68_refuted`). -/
theorem C68_parse_partial (env : NumEnv K) (s : Str) :
    (∀ x ∈ (parsePath env s).1, Canonical x) ∧
    (∀ x, (parsePath env s).1.head? = some x → x.1 = 'M') ∧
    (∀ e, (parsePath env s).2 = some e → e = .valueError ∧ ∃ t, (t, false) ∈ tokenize s ∧ NotNumber t) := by
  obtain ⟨h1, h2, h3⟩ := parseLoop_spec env (tokenize s) (tokenize_good s) PS.init init_inv
  refine ⟨h1, h3 (Or.inl rfl), ?_⟩
  intro e he
  obtain ⟨h4, ⟨t, b⟩, h5, h6, h7⟩ := h2 e he
  have h6 : b = false := h6
  subst h6
  exact ⟨h4, t, h5, h7⟩

/-- **C68** is refuted: a truncated exponent raises `ValueError`, although the documentation promises that no exceptions are
raised; so does an arc flag written as `1.0`. -/
theorem C68_refuted (env : NumEnv K) :
    (parsePath env "M 1e 2".toList).2 = some .valueError ∧
    (parsePath env "M 0 0 A 1 1 0 1.0 0 5 5".toList).2 = some .valueError := ⟨rfl, rfl⟩

/-- Non-vacuity: a real path. -/
example : parsePath exactQ "M10-20.5.5 3e1z".toList =
    ([('M', [10, -41/2]), ('L', [1/2, 30]), ('L', [10, -41/2])], none) := by decide +kernel

end Verif.Svg
