import Verif.GCode.Props3

/-!
# Properties C12, C16, C19 of the G-code generator
-/

set_option linter.unusedSectionVars false

namespace Verif.GCode
open Verif PyFloat

variable {K : Type} [PyFloat K]

/-! ## C16 Numeric text accuracy -/

/-- Value of a digit string. -/
def digitsVal (s : Str) : Nat := s.foldl (fun acc c => acc * 10 + (c.toNat - 48)) 0

/-- Specification: read a plain decimal number `[-]ddd[.ddd]`; anything else is refused. -/
def readDec (s : Str) : Option ℚ :=
  let neg := s.head? = some '-'
  let t := if neg then s.tail else s
  let ip := t.takeWhile (· ≠ '.')
  let rest := t.dropWhile (· ≠ '.')
  let fp := rest.tail
  if ip ≠ [] ∧ ip.all Char.isDigit ∧ fp.all Char.isDigit then
    let v : ℚ := digitsVal ip + digitsVal fp / 10 ^ fp.length
    some (if neg then -v else v)
  else none

/-- Number of digits after the decimal point. -/
def decimals (s : Str) : Nat := (s.dropWhile (· ≠ '.')).tail.length

theorem digitsVal_eq (s : Str) : digitsVal s = Nat.ofDigitChars 10 s 0 := by
  rw [Nat.ofDigitChars_eq_foldl]
  unfold digitsVal
  congr 1
  funext a c
  rw [Nat.mul_comm]; rfl

theorem digitsVal_natDigits (n : Nat) : digitsVal (natDigits n) = n := by
  rw [digitsVal_eq]; exact Nat.ofDigitChars_ten_toDigits

theorem digitsVal_pad (n m : Nat) : digitsVal (padZero n (natDigits m)) = m := by
  unfold padZero
  rw [digitsVal_eq, Nat.ofDigitChars_append, Nat.ofDigitChars_replicate_zero]
  simp
  rw [← digitsVal_eq, digitsVal_natDigits]

theorem natDigits_digit (n : Nat) : ∀ c ∈ natDigits n, c.isDigit = true := fun _ hc =>
  Nat.isDigit_of_mem_toDigits (by decide) (by decide) hc

theorem natDigits_ne (n : Nat) : natDigits n ≠ [] := Nat.toDigits_ne_nil

theorem digit_ne_dot {c : Char} (h : c.isDigit = true) : c ≠ '.' ∧ c ≠ '-' := by
  constructor <;> rintro rfl <;> revert h <;> decide

theorem roundHalfEven_near (q : ℚ) (hq : 0 ≤ q) : |(roundHalfEven q : ℚ) - q| ≤ 1/2 := by
  have hf0 : 0 ≤ ⌊q⌋ := Int.floor_nonneg.mpr hq
  have hcast : ((⌊q⌋.toNat : ℕ) : ℚ) = (⌊q⌋ : ℚ) := by
    rw [← Int.cast_natCast, Int.toNat_of_nonneg hf0]
  have h1 := Int.floor_le q
  have h2 := Int.lt_floor_add_one q
  unfold roundHalfEven
  dsimp only
  rw [hcast]
  split
  · rw [hcast, abs_le]; constructor <;> linarith
  · split
    · push_cast; rw [hcast, abs_le]; constructor <;> linarith
    · split
      · rw [hcast, abs_le]; constructor <;> linarith
      · push_cast; rw [hcast, abs_le]; constructor <;> linarith

theorem padZero_digit (n m : Nat) : ∀ c ∈ padZero n (natDigits m), c.isDigit = true := by
  intro c hc
  simp only [padZero, List.mem_append, List.mem_replicate] at hc
  rcases hc with ⟨_, rfl⟩ | hc
  · decide
  · exact natDigits_digit m c hc

theorem padZero_length (n m : Nat) (hn : 0 < n) (h : m < 10 ^ n) : (padZero n (natDigits m)).length = n := by
  have : (natDigits m).length ≤ n := (Nat.length_toDigits_le_iff (by decide) hn).mpr h
  simp [padZero]; omega

theorem takeWhile_digits (ip fp : Str) (h : ∀ c ∈ ip, c.isDigit = true) :
    (ip ++ '.' :: fp).takeWhile (· ≠ '.') = ip ∧ (ip ++ '.' :: fp).dropWhile (· ≠ '.') = '.' :: fp := by
  induction ip with
  | nil => simp
  | cons c l ih =>
    have hc := (digit_ne_dot (h c (by simp))).1
    have := ih (fun c hc => h c (by simp [hc]))
    simp at this ⊢; simp [hc, this]

theorem takeWhile_digits' (ip : Str) (h : ∀ c ∈ ip, c.isDigit = true) :
    ip.takeWhile (· ≠ '.') = ip ∧ ip.dropWhile (· ≠ '.') = [] := by
  induction ip with
  | nil => simp
  | cons c l ih =>
    have hc := (digit_ne_dot (h c (by simp))).1
    have := ih (fun c hc => h c (by simp [hc]))
    simp at this ⊢; simp [hc]; exact this

/-- **C16 (text)**.  For every exact value `q` and number of decimals `n`, the text `'%.nf' % q` is a plain decimal number
with exactly `n` decimals (so it is readable by any controller), and the number it denotes is within half a unit of the last
digit of `q`.  (Every finite double is an exact rational, so this covers every finite value the program can print.) -/
theorem C16_text_accuracy (n : Nat) (q : ℚ) :
    ∃ r, readDec (fmt n q) = some r ∧ |r - q| ≤ 1 / 2 / 10 ^ n ∧ decimals (fmt n q) = n := by
  show ∃ r, readDec (fmtRat n q) = some r ∧ |r - q| ≤ 1 / 2 / 10 ^ n ∧ decimals (fmtRat n q) = n
  set m := roundHalfEven (|q| * 10 ^ n) with hm
  have hpos : (0 : ℚ) < 10 ^ n := by positivity
  have hnear : |(m : ℚ) - |q| * 10 ^ n| ≤ 1 / 2 := roundHalfEven_near _ (by positivity)
  -- the unsigned text
  set ip := natDigits (m / 10 ^ n) with hip
  have hipd : ∀ c ∈ ip, c.isDigit = true := natDigits_digit _
  have hipne : ip ≠ [] := natDigits_ne _
  have habs : |(m : ℚ) / 10 ^ n - (|q|)| ≤ 1 / 2 / 10 ^ n := by
    have : (m : ℚ) / 10 ^ n - |q| = ((m : ℚ) - |q| * 10 ^ n) / 10 ^ n := by field_simp
    rw [this, abs_div, abs_of_pos hpos]
    exact div_le_div_of_nonneg_right hnear hpos.le
  have body : ∃ fps : Str, fmtRat n q = (if q < 0 then ['-'] else []) ++ (ip ++ fps) ∧
      (ip ++ fps).takeWhile (· ≠ '.') = ip ∧ ((ip ++ fps).dropWhile (· ≠ '.')).tail.all Char.isDigit = true ∧
      ((ip ++ fps).dropWhile (· ≠ '.')).tail.length = n ∧
      (digitsVal ip : ℚ) + digitsVal ((ip ++ fps).dropWhile (· ≠ '.')).tail / 10 ^ n = m / 10 ^ n := by
    by_cases hn : n = 0
    · subst hn
      have ht := takeWhile_digits' ip hipd
      refine ⟨[], ?_, ?_, ?_, ?_, ?_⟩
      · simp [fmtRat, hip]; rw [hm]; simp
      · simpa using ht.1
      · rw [List.append_nil, ht.2]; rfl
      · rw [List.append_nil, ht.2]; rfl
      · rw [List.append_nil, ht.2, hip, digitsVal_natDigits]; simp [digitsVal]
    · have hn' : 0 < n := Nat.pos_of_ne_zero hn
      have hlt : m % 10 ^ n < 10 ^ n := Nat.mod_lt _ (by positivity)
      have ht := takeWhile_digits ip (padZero n (natDigits (m % 10 ^ n))) hipd
      refine ⟨'.' :: padZero n (natDigits (m % 10 ^ n)), ?_, ht.1, ?_, ?_, ?_⟩
      · simp [fmtRat, hn, ← hm, hip]
      · rw [ht.2]; simp only [List.tail_cons, List.all_eq_true]; exact padZero_digit _ _
      · rw [ht.2]; exact padZero_length _ _ hn' hlt
      · rw [ht.2, hip, digitsVal_natDigits, List.tail_cons, digitsVal_pad]
        have : (m : ℚ) = (10 ^ n : ℕ) * (m / 10 ^ n : ℕ) + (m % 10 ^ n : ℕ) := by
          exact_mod_cast (Nat.div_add_mod m (10 ^ n)).symm
        rw [eq_div_iff hpos.ne', add_mul, div_mul_cancel₀ _ hpos.ne']
        rw [this]; push_cast; ring
  obtain ⟨fps, hfmt, htake, hall, hlen, hval⟩ := body
  have hhead : ∀ l : Str, (ip ++ l).head? ≠ some '-' := by
    intro l
    obtain ⟨c, t, hct⟩ : ∃ c t, ip = c :: t := by
      cases hi : ip with
      | nil => exact absurd hi hipne
      | cons c t => exact ⟨c, t, rfl⟩
    rw [hct]
    simp only [List.cons_append, List.head?_cons, ne_eq, Option.some.injEq]
    exact (digit_ne_dot (hipd c (by rw [hct]; simp))).2
  by_cases hq : q < 0
  · refine ⟨-(m / 10 ^ n), ?_, ?_, ?_⟩
    · rw [hfmt]
      simp only [hq, if_true]
      unfold readDec
      simp only [List.cons_append, List.nil_append, List.head?_cons, List.tail_cons, if_true]
      rw [htake, hall, hlen, hval]
      simp only [hipne, ne_eq, not_false_iff, true_and]
      rw [if_pos]
      simpa using hipd
    · have : -((m : ℚ) / 10 ^ n) - q = -((m : ℚ) / 10 ^ n - |q|) := by rw [abs_of_neg hq]; ring
      rw [this, abs_neg]; exact habs
    · rw [hfmt]
      simp only [hq, if_true]
      unfold decimals
      rw [show (['-'] ++ (ip ++ fps)).dropWhile (· ≠ '.') = (ip ++ fps).dropWhile (· ≠ '.') by simp]
      exact hlen
  · refine ⟨m / 10 ^ n, ?_, ?_, ?_⟩
    · rw [hfmt]
      simp only [hq, if_false, List.nil_append]
      unfold readDec
      simp only [hhead, if_false]
      rw [htake, hall, hlen, hval]
      simp only [hipne, ne_eq, not_false_iff, true_and]
      rw [if_pos]
      simpa using hipd
    · rw [abs_of_nonneg (not_lt.mp hq)] at habs; exact habs
    · rw [hfmt]
      simp only [hq, if_false, List.nil_append]
      exact hlen

/-- Tests of the format. -/
example : fmt 4 (-1/3 : ℚ) = "-0.3333".toList ∧ fmt 2 (5/2 : ℚ) = "2.50".toList ∧ fmt 0 (5/2 : ℚ) = "2".toList := by
  decide +kernel

/-- **C16 (precision)**.  In every history, whatever precisions are requested (negative, huge, …), every number word
written carries between 2 and 15 decimals. -/
theorem C16_digits_bounded (g0 : Gen K) (h0 : g0.out = []) (hd : 2 ≤ g0.cfg.digits ∧ g0.cfg.digits ≤ 15)
    (calls : List (Call K)) (b : Block K) (hb : b ∈ blocksOf (g0.run calls).out) (w : Word K) (hw : w ∈ b.words)
    (d : Nat) (v : K) (hv : w.val = .num d v) : 2 ≤ d ∧ d ≤ 15 := by
  have key : ∀ b ∈ blocksOf (g0.run calls).out, ∀ w ∈ b.words, ∀ d v, w.val = .num d v → 2 ≤ d ∧ d ≤ 15 := by
    refine blocks_invariant _ (fun c => 2 ≤ c.digits ∧ c.digits ≤ 15) (fun _ => True) ?_ ?_ calls (fun _ _ => trivial)
      g0 hd (by simp [h0, blocksOf])
    · intro g c hg hcf _
      cases c <;> simp only [Call.isConfig, Bool.false_eq_true] at hcf <;> dsimp only [Gen.step]
      all_goals try exact hg
      · unfold Gen.setOutputPrecision; dsimp only; omega
      · unfold Gen.setUnitProp; split <;> exact hg
      · unfold Gen.setUnits; split <;> exact hg
      · unfold Gen.setPathBlending; dsimp only; split <;> exact hg
    · intro c b hq hwr w hw d v hv
      cases hwr with
      | params cmd hcmd pp h =>
        simp only [Cfg.wordsOf, List.mem_filterMap, Option.map_eq_some_iff] at hw
        obtain ⟨k, _, u, _, rfl⟩ := hw
        cases hv; exact hq
      | bare => simp at hw
      | opaq => simp at hw; subst hw; cases hv
      | dwell => simp at hw; subst hw; cases hv; decide
      | spindle => simp at hw; subst hw; cases hv
      | blendP => simp at hw; subst hw; cases hv; exact hq
      | blendPQ => simp at hw; rcases hw with rfl | rfl <;> (cases hv; exact hq)
      | feed => simp at hw; subst hw; cases hv; exact hq
      | normalize => simp at hw; subst hw; cases hv; exact hq
  exact key b hb w hw d v hv

/-- **C16 (precision in force)**.  After `set_output_precision(p)`, whatever calls follow (that do not set the precision again), every number word written — except the time of a dwell —
carries exactly `p` decimals, with 2 instead of a smaller and 15 instead of a larger `p`. -/
theorem C16_precision_in_force (g0 : Gen K) (h0 : g0.out = []) (p : Int) (calls : List (Call K)) (hc : ∀ c ∈ calls, ∀ q, c ≠ .setOutputPrecision q)
    (b : Block K) (hb : b ∈ blocksOf (g0.run (.setOutputPrecision p :: calls)).out) (hcmd : b.cmd ≠ "G04".toList) (w : Word K) (hw : w ∈ b.words)
    (d : Nat) (v : K) (hv : w.val = .num d v) : (p ≤ 2 → d = 2) ∧ (2 ≤ p → p ≤ 15 → (d : Int) = p) ∧ (15 ≤ p → d = 15) := by
  have key : ∀ b ∈ blocksOf ((g0.step (.setOutputPrecision p)).1.run calls).out, b.cmd ≠ "G04".toList → ∀ w ∈ b.words, ∀ d v, w.val = .num d v →
      (p ≤ 2 → d = 2) ∧ (2 ≤ p → p ≤ 15 → (d : Int) = p) ∧ (15 ≤ p → d = 15) := by
    refine blocks_invariant _ (fun c => (p ≤ 2 → c.digits = 2) ∧ (2 ≤ p → p ≤ 15 → (c.digits : Int) = p) ∧ (15 ≤ p → c.digits = 15))
      (fun c => ∀ q, c ≠ .setOutputPrecision q) ?_ ?_ calls hc _ ?_ ?_
    · intro g c hg hcf hne
      cases c <;> simp only [Call.isConfig, Bool.false_eq_true] at hcf <;> dsimp only [Gen.step]
      all_goals try exact hg
      · exact absurd rfl (hne _)
      · unfold Gen.setUnitProp; split <;> exact hg
      · unfold Gen.setUnits; split <;> exact hg
      · unfold Gen.setPathBlending; dsimp only; split <;> exact hg
    · intro c b hq hwr hne w hw d v hv
      cases hwr with
      | params cmd hcmd pp h =>
        simp only [Cfg.wordsOf, List.mem_filterMap, Option.map_eq_some_iff] at hw
        obtain ⟨k, _, u, _, rfl⟩ := hw
        cases hv; exact hq
      | bare => simp at hw
      | opaq => simp at hw; subst hw; cases hv
      | dwell => exact absurd rfl hne
      | spindle => simp at hw; subst hw; cases hv
      | blendP => simp at hw; subst hw; cases hv; exact hq
      | blendPQ => simp at hw; rcases hw with rfl | rfl <;> (cases hv; exact hq)
      | feed => simp at hw; subst hw; cases hv; exact hq
      | normalize => simp at hw; subst hw; cases hv; exact hq
    · show _ ∧ _ ∧ _
      simp only [Gen.step, Gen.setOutputPrecision]
      refine ⟨fun h => ?_, fun h1 h2 => ?_, fun h => ?_⟩ <;> omega
    · simp [Gen.step, Gen.setOutputPrecision, h0, blocksOf]
  exact key b hb hcmd w hw d v hv

/-- Non-vacuity: asking for 40 decimals gives 15. -/
example : (demo.run [.setOutputPrecision 40, .feed (some 1) none none none none none]).text =
    "G01 X1.000000000000000 F10.000000000000000\n".toList := by decide +kernel

/-! ## C19 Wrapped angles -/

/-- The rotary target of a motion call. -/
def Call.angle : Call K → Option K
  | .rapidMove _ _ _ a _ => a
  | .feed _ _ _ a _ _ => a
  | .feedArc _ _ _ _ _ a _ _ _ => a
  | .gcodeCommand _ kw => kw.args 'A'
  | _ => none

/-- Motion calls that can carry an A word. -/
def Call.isMove : Call K → Bool
  | .rapidMove .. | .feed .. | .feedArc .. | .gcodeCommand .. => true
  | _ => false

/-- Blocks newly written by a call. -/
def newBlocks (g : Gen K) (c : Call K) : List (Block K) := (blocksOf (g.step c).1.out).drop (blocksOf g.out).length

theorem newBlocks_of_adds {g : Gen K} {c : Call K} {l} (h : Adds g (g.step c).1 l) : newBlocks g c = l := by
  unfold newBlocks; rw [h]; simp

/-- Every A word of a line written by `gcode_command` is the image of the given A argument. -/
theorem core_A (g : Gen K) (hm : g.cfg.axisMap = fun _ => none) (cmd : Str) (kw : Kw K) :
    ∃ l, Adds g (g.gcodeCore cmd kw) l ∧ ∀ b ∈ l, ∀ d w, (⟨['A'], .num d w⟩ : Word K) ∈ b.words →
      ∃ a, kw.args 'A' = some a ∧ w = g.cfg.outVal 'A' (g.cfg.effVal 'A' a) := by
  rw [gcodeCore_eq]
  split
  · refine ⟨_, adds_writeLine (g.afterLoop _ _) _ _, ?_⟩
    intro b hb d w hw
    simp only [List.mem_singleton] at hb
    subst hb
    rw [wordsOf_plain _ hm] at hw
    simp only [List.mem_filterMap, Option.map_eq_some_iff] at hw
    obtain ⟨k, _, u, hu, heq⟩ := hw
    simp only [Word.mk.injEq, List.cons.injEq, and_true, Val.num.injEq] at heq
    obtain ⟨rfl, _, rfl⟩ := heq
    simp only [Gen.posParams] at hu
    split at hu
    · simp only [Option.map_eq_some_iff] at hu
      obtain ⟨v, hv, rfl⟩ := hu
      simp only [Gen.newVal] at hv
      split at hv
      · cases hv
      · rename_i v0 hv0
        split at hv
        · cases hv; exact ⟨v0, hv0, rfl⟩
        · cases hv
    · cases hu
  · split
    · refine ⟨_, adds_writeLine (g.afterLoop _ _) _ _, ?_⟩
      intro b hb d w hw
      simp only [List.mem_singleton] at hb
      subst hb
      simp only [paramWords] at hw
      split at hw
      · split at hw <;> simp at hw
      · simp at hw
    · exact ⟨[], by simp [Adds], by simp⟩

theorem move_A (g : Gen K) (hm : g.cfg.axisMap = fun _ => none) (hu : g.cfg.altUp = none) (c : Call K)
    (hc : c.isMove = true) :
    ∃ l, Adds g (g.step c).1 l ∧ ∀ b ∈ l, ∀ d w, (⟨['A'], .num d w⟩ : Word K) ∈ b.words →
      ∃ a, c.angle = some a ∧ w = g.cfg.outVal 'A' (g.cfg.effVal 'A' a) := by
  have hcmd : ∀ (g : Gen K), g.cfg.axisMap = (fun _ => none) → ∀ cmd (kw : Kw K),
      ∃ l, Adds g (g.command cmd kw) l ∧ ∀ b ∈ l, ∀ d w, (⟨['A'], .num d w⟩ : Word K) ∈ b.words →
      ∃ a, kw.args 'A' = some a ∧ w = g.cfg.outVal 'A' (g.cfg.effVal 'A' a) := by
    intro g hm cmd kw
    unfold Gen.command
    split
    · exact ⟨[], adds_refl g, by simp⟩
    · exact core_A g hm _ { kw with params := none }
  cases c <;> simp only [Call.isMove, Bool.false_eq_true] at hc <;> dsimp only [Gen.step, Call.angle]
  case rapidMove x y z a com =>
    unfold Gen.rapidMove
    dsimp only
    have h1 : ∃ l1, Adds g (if g.rapidLifts then g.toolUp else g) l1 ∧ ∀ b ∈ l1, ∀ d w,
        (⟨['A'], .num d w⟩ : Word K) ∉ b.words := by
      split
      · refine ⟨_, adds_toolUp g true none none _ (adds_toolUpMove g true none hu), ?_⟩
        intro b hb d w hw
        simp only [List.mem_append, List.mem_singleton] at hb
        rcases hb with rfl | hb
        · rw [hm] at hw; simp at hw
        · simp only [afterRetract, dwellBlocks, List.mem_append] at hb
          rcases hb with hb | hb
          · split at hb
            · simp only [List.mem_cons] at hb
              rcases hb with rfl | hb
              · simp at hw
              · split at hb
                · simp at hb; subst hb; simp at hw
                · simp at hb
            · simp at hb
          · split at hb
            · simp at hb; subst hb; simp at hw
            · simp at hb
      · exact ⟨[], adds_refl _, by simp⟩
    have hc1 : (if g.rapidLifts then g.toolUp else g).cfg = g.cfg := by
      split
      · exact toolUp_cfg _ _ _ _
      · rfl
    obtain ⟨l1, ha1, hn1⟩ := h1
    generalize (if g.rapidLifts then g.toolUp else g) = g1 at ha1 hc1 ⊢
    obtain ⟨l2, ha2, hn2⟩ := hcmd g1 (by rw [hc1]; exact hm) "G00".toList
      { args := kwOf [('X', x), ('Y', y), ('Z', some (maxZ g1.cfg.zsafe z)), ('A', a)], comment := com }
    refine ⟨l1 ++ l2, ha1.trans ha2, ?_⟩
    intro b hb d w hw
    rcases List.mem_append.mp hb with hb | hb
    · exact absurd hw (hn1 b hb d w)
    · have := hn2 b hb d w hw
      rw [hc1] at this
      simpa [kwOf] using this
  case feed x y z a f com =>
    unfold Gen.feed
    split
    · exact ⟨[], adds_refl _, by simp⟩
    · rename_i ff _
      obtain ⟨l, ha, hn⟩ := hcmd g hm "G01".toList
        { args := kwOf [('X', x), ('Y', y), ('Z', z), ('A', a), ('F', some ff)], comment := com }
      refine ⟨l, ha, ?_⟩
      intro b hb d w hw
      simpa [kwOf] using hn b hb d w hw
  case feedArc cw x y i j a z f com =>
    unfold Gen.feedArc
    split
    · dsimp only
      split
      · exact ⟨[], adds_refl _, by simp⟩
      · obtain ⟨l, ha, hn⟩ := hcmd g hm (if cw then "G02".toList else "G03".toList)
          { args := kwOf [('X', some x), ('Y', some y), ('Z', z), ('I', some i), ('J', some j), ('A', a),
              ('F', some (f.getD g.cfg.xyfeed))], force := ['I', 'J'], comment := com }
        refine ⟨l, ha, ?_⟩
        intro b hb d w hw
        simpa [kwOf] using hn b hb d w hw
    · exact ⟨[], adds_refl _, by simp⟩
  case gcodeCommand cmd kw =>
    unfold Gen.gcodeCommand
    split
    · exact ⟨[], adds_refl _, by simp⟩
    · dsimp only
      split
      · exact ⟨[], adds_refl _, by simp⟩
      · exact core_A g hm _ kw

/-- **C19**.  With `wrap_angles` on and no scale or offset on A, from any state: every A word newly written by a
motion call (`rapid_move`, `feed`, `feed_arc`, `gcode_command`) has magnitude below 360 degrees, and is the requested
angle in degrees up to a whole number of turns. -/
theorem C19_wrapped_angles [Field K] [LinearOrder K] [IsStrictOrderedRing K] [ExactFloat K] (g : Gen K)
    (hw : g.cfg.wrapAngles = true) (hs : g.cfg.axisScale 'A' = none) (ho : g.cfg.axisOffset 'A' = none)
    (hm : g.cfg.axisMap = fun _ => none) (hu : g.cfg.altUp = none) (c : Call K) (hc : c.isMove = true)
    (b : Block K) (hb : b ∈ newBlocks g c) (d : Nat) (v : K) (hv : (⟨['A'], .num d v⟩ : Word K) ∈ b.words) :
    |v| < 360 ∧ ∃ a, c.angle = some a ∧ ∃ n : ℤ, v = a * 180 / pi - 360 * n := by
  obtain ⟨l, ha, hn⟩ := move_A g hm hu c hc
  rw [newBlocks_of_adds ha] at hb
  obtain ⟨a, hca, rfl⟩ := hn b hb d v hv
  have hpi : (0 : K) < pi := ExactFloat.pi_pos
  obtain ⟨n, h1, h2⟩ := ExactFloat.fmod_spec a (2 * pi : K) (by positivity)
  have h2pi : (ofInt 2 *. pi : K) = 2 * pi := by
    rw [ExactFloat.mul_eq, ExactFloat.ofInt_eq]; norm_num
  have hval : g.cfg.outVal 'A' (g.cfg.effVal 'A' a) = fmod a (2 * pi) * 180 / pi := by
    simp only [Cfg.outVal, Cfg.effVal, hw, hs, ho, Option.getD_none, and_self, if_true, true_or, h2pi]
    rw [ExactFloat.degrees_eq, ExactFloat.add_eq, ExactFloat.mul_eq]
    have : (one : K) = 1 ∧ (zero : K) = 0 := by
      constructor <;> simp only [one, zero, ExactFloat.ofInt_eq] <;> norm_num
    rw [this.1, this.2, mul_one, add_zero]
  rw [hval]
  refine ⟨?_, a, hca, n, ?_⟩
  · rw [abs_div, abs_mul, abs_of_pos hpi, abs_of_pos (by norm_num : (0:K) < 180), div_lt_iff₀ hpi]
    nlinarith
  · rw [h1]; field_simp; ring

/-- A wrapping generator. -/
def demoWrap : Gen ℚ := demo.run [.setWrapAngles true]

/-- Non-vacuity: feeding to 7 radians writes an A word. -/
example : demoWrap.cfg.wrapAngles = true ∧ demoWrap.cfg.axisScale 'A' = none ∧ demoWrap.cfg.axisOffset 'A' = none ∧
    demoWrap.cfg.altUp = none ∧
    (newBlocks demoWrap (.feed none none none (some 7) none none)).map (fun b => b.words.length) = [2] := by
  decide +kernel

end Verif.GCode
