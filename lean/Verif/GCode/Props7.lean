import Verif.GCode.Props6

/-!
# Property C10 at text level

`codeLines` is an independent reader of G-code text: it drops `( … )` and `; …` comments, trailing blanks and blank
lines.
-/

set_option linter.unusedSectionVars false

namespace Verif.GCode
open Verif PyFloat

variable {K : Type} [PyFloat K]

/-! ## Reference reader of G-code text -/

/-- Where the reader is in a line. -/
inductive Mode where
  | code | paren | semi
  deriving DecidableEq, Repr

/-- Drop trailing blanks. -/
def rstrip (s : Str) : Str := (s.reverse.dropWhile (· = ' ')).reverse

/-- Finish a line: blank lines are not code. -/
def finish (cur : Str) : List Str := if (rstrip cur).isEmpty then [] else [rstrip cur]

/-- Read text, collecting the code of each line. -/
def scan : Mode → Str → Str → List Str
  | _, cur, [] => finish cur
  | m, cur, c :: t =>
    if c = '\n' then finish cur ++ scan .code [] t
    else match m with
      | .code => if c = '(' then scan .paren cur t else if c = ';' then scan .semi cur t else scan .code (cur ++ [c]) t
      | .paren => if c = ')' then scan .code cur t else scan .paren cur t
      | .semi => scan .semi cur t

/-- The code lines of a G-code text. -/
def codeLines (t : Str) : List Str := scan .code [] t

/-- Comment text that cannot end its comment: no closing parenthesis, no line break. -/
def CleanComment (s : Str) : Prop := ∀ c ∈ s, c ≠ ')' ∧ c ≠ '\n'

/-- Code text without comment characters or line breaks. -/
def CleanCode (s : Str) : Prop := ∀ c ∈ s, c ≠ '(' ∧ c ≠ ';' ∧ c ≠ '\n'

theorem scan_code (s t cur : Str) (h : CleanCode s) : scan .code cur (s ++ t) = scan .code (cur ++ s) t := by
  induction s generalizing cur with
  | nil => simp
  | cons c s ih =>
    have hc := h c (by simp)
    rw [List.cons_append, scan]
    simp only [hc.1, hc.2.1, hc.2.2, if_false]
    rw [ih _ (fun d hd => h d (by simp [hd]))]
    simp

theorem scan_paren (s t cur : Str) (h : CleanComment s) : scan .paren cur (s ++ ')' :: t) = scan .code cur t := by
  induction s with
  | nil => rw [List.nil_append, scan]; simp
  | cons c s ih =>
    have hc := h c (by simp)
    rw [List.cons_append, scan]
    simp only [hc.1, hc.2, if_false]
    exact ih (fun d hd => h d (by simp [hd]))

theorem scan_semi (s t cur : Str) (h : CleanComment s) : scan .semi cur (s ++ '\n' :: t) = finish cur ++ scan .code [] t := by
  induction s with
  | nil => rw [List.nil_append, scan]; simp
  | cons c s ih =>
    have hc := h c (by simp)
    rw [List.cons_append, scan]
    simp only [hc.2, if_false]
    exact ih (fun d hd => h d (by simp [hd]))

theorem scan_nl (t cur : Str) (m : Mode) : scan m cur ('\n' :: t) = finish cur ++ scan .code [] t := by
  rw [scan.eq_def]; simp

/-! ## What the generator writes -/

/-- Raw text that carries no code. -/
def CleanRaw (s : Str) : Prop :=
  s = ['\n'] ∨ s = ['\n', '\n'] ∨ s = [';', '\n'] ∨ ∃ c, CleanComment c ∧ (s = ';' :: ' ' :: c ++ ['\n'] ∨ s = '(' :: c ++ [')', '\n'])

/-- An output item whose comments are clean. -/
def CleanOut : Out K → Prop
  | .raw s => s = ['%', '\n'] ∨ CleanRaw s
  | .line _ _ com => ∀ c, com = some c → CleanComment c

/-- Text of the line number prefix. -/
def numText : Option Nat → Str
  | some n => 'N' :: natDigits n ++ [' ']
  | none => []

theorem natDigits_clean (n : Nat) : CleanCode (natDigits n) := by
  intro c hc
  have := Nat.isDigit_of_mem_toDigits (by decide) (by decide) hc
  refine ⟨?_, ?_, ?_⟩ <;> (rintro rfl; revert this; decide)

theorem numText_clean (n : Option Nat) : CleanCode (numText n) := by
  cases n with
  | none => intro c hc; cases hc
  | some n =>
    intro c hc
    simp only [numText, List.cons_append, List.mem_cons, List.mem_append, List.not_mem_nil, or_false] at hc
    rcases hc with rfl | hc | rfl
    · decide
    · exact natDigits_clean n c hc
    · decide

theorem rstrip_blank (s : Str) : rstrip (s ++ [' ']) = rstrip s := by
  simp [rstrip]

theorem finish_blank (s : Str) : finish (s ++ [' ']) = finish s := by simp [finish, rstrip_blank]

/-- Code carried by one output item. -/
def itemCode : Out K → List Str
  | .raw s => if s = ['%', '\n'] then [['%']] else []
  | .line n b _ => finish (numText n ++ b.render)

theorem CleanCode.append {a b : Str} (ha : CleanCode a) (hb : CleanCode b) : CleanCode (a ++ b) := by
  intro c hc
  rcases List.mem_append.mp hc with h | h
  · exact ha c h
  · exact hb c h

theorem scan_item (o : Out K) (t : Str) (hc : CleanOut o) (hb : ∀ n b c, o = .line n b c → CleanCode b.render) :
    scan .code [] (o.render ++ t) = itemCode o ++ scan .code [] t := by
  cases o with
  | raw s =>
    rcases hc with rfl | hc | hc | hc | ⟨c, hcc, hc | hc⟩
    · simp only [Out.render, itemCode, if_true, List.cons_append, List.nil_append]
      rw [scan]
      simp only [show ¬ ('%' = '\n') by decide, show ¬ ('%' = '(') by decide, show ¬ ('%' = ';') by decide, if_false]
      rw [scan_nl]
      rfl
    · subst hc
      have : itemCode (.raw ['\n'] : Out K) = [] := by simp [itemCode]
      rw [this]
      simp only [Out.render, List.cons_append, List.nil_append]
      rw [scan_nl]; rfl
    · subst hc
      have : itemCode (.raw ['\n', '\n'] : Out K) = [] := by simp [itemCode]
      rw [this]
      simp only [Out.render, List.cons_append, List.nil_append]
      rw [scan_nl, scan_nl]; rfl
    · subst hc
      have : itemCode (.raw [';', '\n'] : Out K) = [] := by simp [itemCode]
      rw [this]
      simp only [Out.render, List.cons_append, List.nil_append]
      rw [scan]
      simp only [show ¬ (';' = '\n') by decide, show ¬ (';' = '(') by decide, if_false, if_true]
      rw [scan_nl]; rfl
    · subst hc
      have : itemCode (.raw (';' :: ' ' :: c ++ ['\n']) : Out K) = [] := by
        simp [itemCode]
      rw [this]
      simp only [Out.render, List.cons_append, List.append_assoc, List.nil_append]
      rw [scan]
      simp only [show ¬ (';' = '\n') by decide, show ¬ (';' = '(') by decide, if_false, if_true]
      rw [scan]
      simp only [show ¬ (' ' = '\n') by decide, if_false]
      rw [scan_semi _ _ _ hcc]; rfl
    · subst hc
      have : itemCode (.raw ('(' :: c ++ [')', '\n']) : Out K) = [] := by
        simp [itemCode]
      rw [this]
      simp only [Out.render, List.cons_append, List.append_assoc, List.nil_append]
      rw [scan]
      simp only [show ¬ ('(' = '\n') by decide, if_false, if_true]
      rw [scan_paren _ _ _ hcc, scan_nl]; rfl
  | line n b com =>
    have hcl := (numText_clean n).append (hb n b com rfl)
    cases com with
    | none =>
      have : (Out.line n b none : Out K).render ++ t = (numText n ++ b.render) ++ '\n' :: t := by
        cases n <;> simp [Out.render, numText]
      rw [this, scan_code _ _ _ hcl, scan_nl]
      rfl
    | some c =>
      have : (Out.line n b (some c) : Out K).render ++ t = ((numText n ++ b.render) ++ [' ']) ++ '(' :: (c ++ ')' :: '\n' :: t) := by
        cases n <;> simp [Out.render, numText]
      have hcl2 : CleanCode ((numText n ++ b.render) ++ [' ']) := hcl.append (by intro c hc; simp at hc; subst hc; decide)
      rw [this, scan_code _ _ _ hcl2]
      rw [scan]
      simp only [show ¬ ('(' = '\n') by decide, if_false, if_true]
      rw [scan_paren _ _ _ (hc c rfl), scan_nl, List.nil_append, finish_blank]
      rfl

/-- The text of a clean output stream, read back. -/
theorem codeLines_out (out : List (Out K)) (hc : ∀ o ∈ out, CleanOut o) (hb : ∀ b ∈ blocksOf out, CleanCode b.render) :
    codeLines (out.map Out.render).flatten = out.flatMap itemCode := by
  unfold codeLines
  induction out with
  | nil => rfl
  | cons o out ih =>
    rw [List.map_cons, List.flatten_cons, scan_item o _ (hc o (by simp)), List.flatMap_cons, ih]
    · exact fun o' h' => hc o' (by simp [h'])
    · intro b hb'; apply hb
      cases o <;> simp [blocksOf] at hb' ⊢
      · exact hb'
      · exact Or.inr hb'
    · intro n b c ho; apply hb; subst ho; simp [blocksOf]

theorem itemCode_lines (out : List (Out K)) :
    (out.flatMap itemCode).filter (· ≠ ['%']) =
      ((linesOf out).flatMap fun p => finish (numText p.1 ++ p.2.render)).filter (· ≠ ['%']) := by
  induction out with
  | nil => rfl
  | cons o out ih =>
    cases o with
    | raw s =>
      rw [List.flatMap_cons, List.filter_append, ih]
      have : (itemCode (.raw s : Out K)).filter (· ≠ ['%']) = [] := by
        dsimp only [itemCode]; split <;> rfl
      rw [this]; rfl
    | line n b c =>
      rw [List.flatMap_cons, List.filter_append, ih]
      simp [linesOf, itemCode]

/-! ## Clean comments stay clean -/

/-- An optional comment is clean. -/
def CleanOpt (c : Option Str) : Prop := ∀ s, c = some s → CleanComment s

/-- A comment argument is clean. -/
def CleanArg : CommentArg → Prop
  | .none => True
  | .one s => CleanComment s
  | .many l => ∀ s ∈ l, CleanComment s

/-- Every comment of the output and of the pending header is clean. -/
structure CleanGen (g : Gen K) : Prop where
  out : ∀ o ∈ g.out, CleanOut o
  hdr : ∀ c ∈ g.cfg.headerComments, CleanArg c

theorem CleanGen.line {g : Gen K} (h : CleanGen g) (b c) (hc : CleanOpt c) : CleanGen (g.writeLine b c) := by
  refine ⟨?_, h.hdr⟩
  intro o ho
  simp only [Gen.writeLine, List.mem_append, List.mem_singleton] at ho
  rcases ho with ho | rfl
  · exact h.out o ho
  · intro s hs
    split at hs
    · rw [Option.filter_eq_some_iff] at hs; exact hc s hs.1
    · cases hs

theorem CleanGen.raw {g : Gen K} (h : CleanGen g) (s) (hs : s = ['%', '\n'] ∨ CleanRaw s) : CleanGen (g.writeRaw s) := by
  refine ⟨?_, h.hdr⟩
  intro o ho
  simp only [Gen.writeRaw, List.mem_append, List.mem_singleton] at ho
  rcases ho with ho | rfl
  · exact h.out o ho
  · exact hs

theorem CleanGen.keep {g : Gen K} (h : CleanGen g) (l up rs) : CleanGen ⟨g.cfg, l, up, rs, g.lineNumber, g.out⟩ := ⟨h.out, h.hdr⟩

theorem CleanGen.writeComment {g : Gen K} (h : CleanGen g) (c s) (hc : CleanOpt c) : CleanGen (g.writeComment c s) := by
  unfold Gen.writeComment
  split
  · exact h.raw _ (.inr (.inl rfl))
  · rename_i c
    split
    · exact h.raw _ (.inr (.inr (.inr (.inl rfl))))
    · split
      · exact h.raw _ (.inr (.inr (.inr (.inr ⟨c, hc c rfl, .inl rfl⟩))))
      · exact h.raw _ (.inr (.inr (.inr (.inr ⟨c, hc c rfl, .inr rfl⟩))))

theorem CleanGen.comment {g : Gen K} (h : CleanGen g) (c s) (hc : CleanArg c) : CleanGen (g.comment c s) := by
  unfold Gen.comment
  split
  · cases c with
    | none => exact h.writeComment _ _ (by intro s hs; cases hs)
    | one t => exact h.writeComment _ _ (by intro s hs; cases hs; exact hc)
    | many l =>
      dsimp only [CleanArg] at hc ⊢
      induction l generalizing g with
      | nil => exact h
      | cons a l ih =>
        rw [List.foldl_cons]
        refine ih (h.writeComment _ _ ?_) (by rw [writeComment_cfg]; assumption) (fun s hs => hc s (by simp [hs]))
        intro s hs; cases hs; exact hc a (by simp)
  · exact h

theorem CleanGen.core {g : Gen K} (h : CleanGen g) (cmd kw) (hc : CleanOpt kw.comment) : CleanGen (g.gcodeCore cmd kw) := by
  rw [gcodeCore_eq]
  have h1 : CleanGen (g.afterLoop (baseCmd cmd) kw) := h.keep _ _ _
  split
  · exact h1.line _ _ hc
  · split
    · exact h1.line _ _ hc
    · exact h1

theorem CleanGen.command {g : Gen K} (h : CleanGen g) (cmd kw) (hc : CleanOpt kw.comment) : CleanGen (g.command cmd kw) := by
  unfold Gen.command
  split
  · exact h
  · exact h.core _ _ hc

theorem cleanOpt_none : CleanOpt none := by intro s hs; cases hs

/-- Closed comment texts are checked by evaluation. -/
theorem cleanOpt_of (s : Str) (h : (s.all fun c => c ≠ ')' ∧ c ≠ '\n') = true) : CleanOpt (some s) := by
  intro t ht; cases ht
  intro c hc
  have := List.all_eq_true.mp h c hc
  simpa using this

theorem cleanComment_of (s : Str) (h : (s.all fun c => c ≠ ')' ∧ c ≠ '\n') = true) : CleanComment s := cleanOpt_of s h s rfl

section
-- number formatting never produces a parenthesis or a line break
variable (hfmt : ∀ (d : Nat) (v : K), CleanComment (fmt d v))
include hfmt

theorem CleanGen.dwell {g : Gen K} (h : CleanGen g) (ms c) (hc : CleanOpt c) : CleanGen (g.dwell ms c) := by
  unfold Gen.dwell
  split
  · refine h.line _ _ ?_
    have hdc : ∀ sec : K, CleanComment (dwellComment sec) := by
      intro sec ch hch
      unfold dwellComment at hch
      rcases List.mem_append.mp hch with hch | hch
      · rcases List.mem_append.mp hch with hch | hch
        · exact cleanComment_of "Pause tool for ".toList (by decide) ch hch
        · exact hfmt _ _ ch hch
      · exact cleanComment_of " seconds".toList (by decide) ch hch
    intro s hs
    rw [Option.some.injEq] at hs
    rw [← hs]
    cases c with
    | some c => exact hc c rfl
    | none => exact hdc _
  · exact h

theorem CleanGen.wait {g : Gen K} (h : CleanGen g) (ms : K) : CleanGen (if zero <. ms then g.dwell ms else g) := by
  split
  · exact h.dwell hfmt _ _ cleanOpt_none
  · exact h

theorem CleanGen.spindleOn {g : Gen K} (h : CleanGen g) (s cw w c) (hc : CleanOpt c) : CleanGen (g.spindleOn s cw w c) := by
  unfold Gen.spindleOn
  exact (h.line _ _ hc).wait hfmt _

theorem CleanGen.spindleOff {g : Gen K} (h : CleanGen g) (w c) (hc : CleanOpt c) : CleanGen (g.spindleOff w c) := by
  unfold Gen.spindleOff
  exact (h.line _ _ hc).wait hfmt _

theorem CleanGen.toolUp {g : Gen K} (h : CleanGen g) (rp w c) (hc : CleanOpt c) : CleanGen (g.toolUp rp w c) := by
  have h1 : CleanGen (g.toolUpMove rp c) := by
    unfold Gen.toolUpMove
    split
    · exact h.command _ _ cleanOpt_none
    · exact h.command _ _ hc
  unfold Gen.toolUp
  dsimp only
  generalize g.toolUpMove rp c = g1 at h1 ⊢
  have h2 : CleanGen (if g1.cfg.spAuto then g1.spindleOff else g1) := by
    split
    · exact h1.spindleOff hfmt _ _ cleanOpt_none
    · exact h1
  exact (h2.wait hfmt _).keep _ _ _

theorem CleanGen.toolDown {g : Gen K} (h : CleanGen g) (z f w c) (hc : CleanOpt c) : CleanGen (g.toolDown z f w c) := by
  unfold Gen.toolDown
  dsimp only
  have h1 : CleanGen (if g.cfg.spAuto then g.spindleOn else g) := by
    split
    · exact h.spindleOn hfmt _ _ _ _ cleanOpt_none
    · exact h
  generalize (if g.cfg.spAuto then g.spindleOn else g) = g1 at h1 ⊢
  have h2 : CleanGen (g1.toolDownMove z (f.getD g.cfg.zfeed) c) := by
    unfold Gen.toolDownMove
    split
    · exact h1.command _ _ cleanOpt_none
    · exact h1.command _ _ hc
  exact (h2.keep _ _ _).wait hfmt _

theorem CleanGen.rapidMove {g : Gen K} (h : CleanGen g) (x y z a c) (hc : CleanOpt c) : CleanGen (g.rapidMove x y z a c) := by
  unfold Gen.rapidMove
  dsimp only
  have h1 : CleanGen (if g.rapidLifts then g.toolUp else g) := by
    split
    · exact h.toolUp hfmt _ _ _ cleanOpt_none
    · exact h
  exact h1.command _ _ hc

theorem CleanGen.headerBlend {g : Gen K} (h : CleanGen g) : CleanGen g.headerBlend := by
  unfold Gen.headerBlend
  repeat' split
  all_goals first
    | exact h
    | exact h.line _ _ (cleanOpt_of _ (by decide))

theorem CleanGen.header {g : Gen K} (h : CleanGen g) (today c) (ht : CleanComment today) (hc : CleanArg c) :
    CleanGen (g.header today c).1 := by
  rw [header_eq]
  dsimp only
  have hfold : ∀ (l : List CommentArg) (g : Gen K), (∀ c ∈ l, CleanArg c) → CleanGen g →
      CleanGen (l.foldl (fun g c => g.comment c) g) := by
    intro l
    induction l with
    | nil => intro g _ h; exact h
    | cons a l ih =>
      intro g hl h
      rw [List.foldl_cons]
      exact ih _ (fun c hc => hl c (by simp [hc])) (h.comment _ _ (hl a (by simp)))
  have hdash : CleanComment headerDashes := cleanComment_of _ (by decide)
  have hdate : CleanComment ("Creation date: ".toList ++ today) := by
    intro ch hch
    rcases List.mem_append.mp hch with h | h
    · exact cleanComment_of "Creation date: ".toList (by decide) ch h
    · exact ht ch h
  have h1 : CleanGen (g.headerFront today c) := by
    unfold Gen.headerFront
    dsimp only
    have a1 : CleanGen (g.writeRaw ['%', '\n']) := h.raw _ (.inl rfl)
    generalize g.writeRaw ['%', '\n'] = b1 at a1 ⊢
    have a2 := a1.comment (.one headerDashes) true hdash
    generalize b1.comment (.one headerDashes) true = b2 at a2 ⊢
    have a3 := a2.comment (.one ("Creation date: ".toList ++ today)) true hdate
    generalize b2.comment (.one ("Creation date: ".toList ++ today)) true = b3 at a3 ⊢
    have a4 := a3.comment (.one "Target machine: LinuxCNC, version 2.4+".toList) true (cleanComment_of _ (by decide))
    generalize b3.comment (.one "Target machine: LinuxCNC, version 2.4+".toList) true = b4 at a4 ⊢
    have a5 := hfold b4.cfg.headerComments b4 a4.hdr a4
    generalize b4.cfg.headerComments.foldl (fun g c => g.comment c) b4 = b5 at a5 ⊢
    have a6 : CleanGen (b5.headerComment c) := by
      unfold Gen.headerComment
      split
      · exact a5
      · exact a5.comment _ _ hc
    exact (a6.comment (.one headerDashes) true hdash).raw _ (.inr (.inl rfl))
  generalize g.headerFront today c = g1 at h1 ⊢
  have h2 : CleanGen g1.headerModal := by
    unfold Gen.headerModal
    dsimp only
    have a1 : CleanGen (g1.writeLine ⟨"G17".toList, []⟩ (some "XY plane".toList)) := h1.line _ _ (cleanOpt_of _ (by decide))
    generalize g1.writeLine ⟨"G17".toList, []⟩ (some "XY plane".toList) = b1 at a1 ⊢
    apply CleanGen.headerBlend hfmt
    refine (CleanGen.line (CleanGen.line (CleanGen.line ?_ _ _ ?_) _ _ ?_) _ _ ?_)
    · split
      · exact a1.line _ _ (cleanOpt_of _ (by decide))
      · exact a1.line _ _ (cleanOpt_of _ (by decide))
    all_goals exact cleanOpt_of _ (by decide)
  have h3 := (h2.raw ['\n'] (.inr (.inl rfl))).comment (.one "Default feed rate".toList) true (cleanComment_of _ (by decide))
  generalize (g1.headerModal.writeRaw ['\n']).comment (.one "Default feed rate".toList) = g2 at h3 ⊢
  have h4 : CleanGen (g2.feedRate g2.cfg.xyfeed).1 := by
    unfold Gen.feedRate
    split
    · exact (h3.line _ _ cleanOpt_none).keep _ _ _
    · exact h3
  generalize g2.feedRate g2.cfg.xyfeed = r at h4 ⊢
  obtain ⟨g3, e⟩ := r
  cases e
  · exact h4.raw _ (.inr (.inr (.inl rfl)))
  · exact h4

/-- The comment texts of a call are clean. -/
def CleanCall : Call K → Prop
  | .rapidMove _ _ _ _ c | .feed _ _ _ _ _ c | .feedArc _ _ _ _ _ _ _ _ c | .toolUp _ _ c | .toolDown _ _ _ c
  | .spindleOn _ _ _ c | .spindleOff _ c | .dwell _ c | .pause _ c => CleanOpt c
  | .comment c _ | .addHeaderComment c => CleanArg c
  | .header t c => CleanComment t ∧ CleanArg c
  | .gcodeCommand _ kw => CleanOpt kw.comment
  | _ => True

theorem CleanGen.step {g : Gen K} (h : CleanGen g) (c : Call K) (hc : CleanCall c) : CleanGen (g.step c).1 := by
  cases c <;> dsimp only [CleanCall] at hc <;> dsimp only [Gen.step]
  case rapidMove => exact h.rapidMove hfmt _ _ _ _ _ hc
  case feed =>
    unfold Gen.feed; split
    · exact h
    · exact h.command _ _ hc
  case feedArc =>
    unfold Gen.feedArc; split
    · dsimp only; split
      · exact h
      · exact h.command _ _ hc
    · exact h
  case toolUp => exact h.toolUp hfmt _ _ _ hc
  case toolDown => exact h.toolDown hfmt _ _ _ _ hc
  case spindleOn => exact h.spindleOn hfmt _ _ _ _ hc
  case spindleOff => exact h.spindleOff hfmt _ _ hc
  case dwell => exact h.dwell hfmt _ _ hc
  case pause => exact h.command _ _ hc
  case comment => exact h.comment _ _ hc
  case header => exact h.header hfmt _ _ hc.1 hc.2
  case footer =>
    unfold Gen.footer
    dsimp only
    have a1 := h.raw ['\n'] (.inr (.inl rfl))
    generalize g.writeRaw ['\n'] = g1 at a1 ⊢
    refine CleanGen.raw (CleanGen.line ?_ _ _ (cleanOpt_of _ (by decide))) _ (.inl rfl)
    split
    · exact a1.command _ _ (cleanOpt_of _ (by decide))
    · exact a1
  case feedRate =>
    unfold Gen.feedRate
    split
    · exact (h.line _ _ cleanOpt_none).keep _ _ _
    · exact h
  case normalizeAxisAngle =>
    unfold Gen.normalizeAxisAngle
    dsimp only
    repeat' split
    all_goals first
      | exact h
      | exact (h.line _ _ (cleanOpt_of _ (by decide))).keep _ _ _
  case gcodeCommand =>
    unfold Gen.gcodeCommand
    split
    · exact h
    · dsimp only; split
      · exact h
      · exact h.core _ _ hc
  case addHeaderComment c =>
    refine ⟨h.out, ?_⟩
    intro c' hc'
    simp only [Gen.addHeaderComment, List.mem_append, List.mem_singleton] at hc'
    rcases hc' with h' | rfl
    · exact h.hdr c' h'
    · exact hc
  case setUnitProp => unfold Gen.setUnitProp; split <;> exact ⟨h.out, h.hdr⟩
  case setUnits => unfold Gen.setUnits; split <;> exact ⟨h.out, h.hdr⟩
  case setPathBlending => unfold Gen.setPathBlending; dsimp only; split <;> exact ⟨h.out, h.hdr⟩
  all_goals exact ⟨h.out, h.hdr⟩

theorem CleanGen.run {g : Gen K} (h : CleanGen g) (cs : List (Call K)) (hc : ∀ c ∈ cs, CleanCall c) : CleanGen (g.run cs) := by
  induction cs generalizing g with
  | nil => exact h
  | cons c cs ih => exact ih (h.step hfmt c (hc c (by simp))) (fun c' h' => hc c' (by simp [h']))

/-- **C10 (text level, partial)**.  Two generators with empty output that differ at most in comment settings, two histories
that make the same calls apart from comments, all comment texts without `)` and line breaks.  Then a reader that drops
comments finds exactly the same code lines in the two program texts (percent lines aside), namely the rendered
commands in order.

Missing: comments containing `)` or a line break (refuted below). -/
theorem C10_comments_inert_text_partial (g1 g2 : Gen K) (hg : SameButComments g1 g2) (h0 : g1.out = [])
    (hh1 : ∀ c ∈ g1.cfg.headerComments, CleanArg c) (hh2 : ∀ c ∈ g2.cfg.headerComments, CleanArg c)
    (cs1 cs2 : List (Call K)) (hcs : cs1.filterMap Call.code = cs2.filterMap Call.code)
    (hc1 : ∀ c ∈ cs1, CleanCall c) (hc2 : ∀ c ∈ cs2, CleanCall c)
    (hb : ∀ b ∈ blocksOf (g1.run cs1).out, CleanCode b.render) :
    (codeLines (g1.run cs1).text).filter (· ≠ ['%']) = (codeLines (g2.run cs2).text).filter (· ≠ ['%']) ∧
    (codeLines (g1.run cs1).text).filter (· ≠ ['%']) =
      ((linesOf (g1.run cs1).out).flatMap fun p => finish (numText p.1 ++ p.2.render)).filter (· ≠ ['%']) := by
  have hl := (C10_comments_inert_code g1 g2 hg cs1 cs2 hcs).1
  have h02 : g2.out = [] := by rw [hg]; exact h0
  have k1 : CleanGen (g1.run cs1) := CleanGen.run hfmt ⟨by rw [h0]; simp, hh1⟩ cs1 hc1
  have k2 : CleanGen (g2.run cs2) := CleanGen.run hfmt ⟨by rw [h02]; simp, hh2⟩ cs2 hc2
  have hb2 : ∀ b ∈ blocksOf (g2.run cs2).out, CleanCode b.render := by
    rw [blocksOf_lines, ← hl, ← blocksOf_lines]; exact hb
  unfold Gen.text
  rw [codeLines_out _ k1.out hb, codeLines_out _ k2.out hb2, itemCode_lines, itemCode_lines, hl]
  exact ⟨rfl, rfl⟩

end

theorem fmtRat_clean (d : Nat) (v : ℚ) : CleanComment (fmt d v) := by
  have hd : ∀ n, CleanComment (natDigits n) := by
    intro n c hc
    have := Nat.isDigit_of_mem_toDigits (by decide) (by decide) hc
    refine ⟨?_, ?_⟩ <;> (rintro rfl; revert this; decide)
  intro c hc
  change c ∈ fmtRat d v at hc
  simp only [fmtRat, List.mem_append] at hc
  rcases hc with (hc | hc) | hc
  · split at hc
    · simp at hc; subst hc; decide
    · cases hc
  · exact hd _ c hc
  · split at hc
    · cases hc
    · simp only [List.mem_cons, padZero, List.mem_append, List.mem_replicate] at hc
      rcases hc with rfl | ⟨_, rfl⟩ | hc
      · decide
      · decide
      · exact hd _ c hc

/-- Non-vacuity: formatting of rationals is clean, and a commented program reads back as its commands. -/
example : (∀ d (v : ℚ), CleanComment (fmt d v)) ∧
    codeLines (demo.run [.comment (.one "cut".toList) true, .feed (some 1) none none none (some 9) (some "a (b".toList)]).text
      = ["G01 X1.000000 F9.000000".toList] := ⟨fmtRat_clean, by decide +kernel⟩

/-- A comment with a closing parenthesis. -/
def evilParen : Gen ℚ := demo.run [.feed (some 1) none none none (some 9) (some "x) X5 (".toList)]
/-- A comment with a line break. -/
def evilBreak : Gen ℚ := demo.run [.comment (.one "x\nG00 Z-5".toList) true]

/-- **C10 refuted (parenthesis)**: comment text becomes an extra `X5` word of a motion line. -/
theorem C10_refuted_parenthesis : codeLines evilParen.text = ["G01 X1.000000 F9.000000  X5".toList] := by
  decide +kernel

/-- **C10 refuted (line break)**: comment text becomes a rapid plunge, although no motion call was made. -/
theorem C10_refuted_line_break : codeLines evilBreak.text = ["G00 Z-5".toList] := by
  decide +kernel

end Verif.GCode
