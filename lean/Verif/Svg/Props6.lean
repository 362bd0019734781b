import Verif.Svg.Css

/-!
# C73, C74: colours and inline styles
-/

set_option linter.unusedSectionVars false

namespace Verif.Css
open Verif PyFloat

/-! ## Specification -/

/-- Specification: a lower-case hexadecimal digit. -/
def LowHex (c : Char) : Prop := c ∈ "0123456789abcdef".toList

instance (c : Char) : Decidable (LowHex c) := by unfold LowHex; infer_instance

/-- Specification: a text of the form `#rrggbb`. -/
def IsHexColor (t : Str) : Prop := ∃ a b c d e f, t = ['#', a, b, c, d, e, f] ∧ ∀ x ∈ [a, b, c, d, e, f], LowHex x

/-- Specification: a colour channel. -/
def InRange (n : Int) : Prop := 0 ≤ n ∧ n ≤ 255

/-! ## Lemmas on text -/

theorem dropWhile_mem {p : Char → Bool} {s : Str} {c : Char} (h : c ∈ s.dropWhile p) : c ∈ s :=
  (List.dropWhile_suffix p).subset h

theorem stripBy_mem {p : Char → Bool} {s : Str} {c : Char} (h : c ∈ stripBy p s) : c ∈ s := by
  unfold stripBy at h
  rw [List.mem_reverse] at h
  have := dropWhile_mem h
  rw [List.mem_reverse] at this
  exact dropWhile_mem this

theorem stripBy_len (p : Char → Bool) (s : Str) : (stripBy p s).length ≤ s.length := by
  unfold stripBy
  rw [List.length_reverse]
  refine le_trans (List.dropWhile_suffix p).length_le ?_
  rw [List.length_reverse]
  exact (List.dropWhile_suffix p).length_le

theorem stripBy_id {p : Char → Bool} {s : Str} (h1 : ∀ c, s.head? = some c → p c = false) (h2 : ∀ c, s.getLast? = some c → p c = false) :
    stripBy p s = s := by
  have h3 : s.dropWhile p = s := by
    cases s with
    | nil => rfl
    | cons c s => rw [List.dropWhile_cons_of_neg (by rw [h1 c rfl]; simp)]
  have h4 : s.reverse.dropWhile p = s.reverse := by
    cases hr : s.reverse with
    | nil => rfl
    | cons c t =>
      rw [List.dropWhile_cons_of_neg]
      rw [h2 c (by rw [← List.head?_reverse, hr]; rfl)]; simp
  unfold stripBy
  rw [h3, h4, List.reverse_reverse]

/-! ## Lemmas on hexadecimal numbers -/

theorem hexVal_lt {c : Char} {n : Nat} (h : hexVal c = some n) : n < 16 := by
  unfold hexVal at h
  split_ifs at h with h1 h2 h3 <;> rw [Option.some.injEq] at h <;> subst h
  · have h1b : c.toNat ≤ 57 := h1.2
    have : '0'.toNat = 48 := rfl
    omega
  · have h1b : c.toNat ≤ 102 := h2.2
    have : 'a'.toNat = 97 := rfl
    omega
  · have h1b : c.toNat ≤ 70 := h3.2
    have : 'A'.toNat = 65 := rfl
    omega

theorem hexNat_lt' (s : Str) : ∀ (m n : Nat), s.foldlM (fun n c => (hexVal c).map fun d => 16 * n + d) m = some n →
    n < 16 ^ s.length * (m + 1) := by
  induction s with
  | nil => intro m n h; simp only [List.foldlM_nil] at h; cases h; simp
  | cons c s ih =>
    intro m n h
    rw [List.foldlM_cons] at h
    cases hc : hexVal c with
    | none => rw [hc] at h; cases h
    | some d =>
      rw [hc] at h
      have := ih _ n h
      have hd := hexVal_lt hc
      rw [List.length_cons, pow_succ]
      calc n < 16 ^ s.length * (16 * m + d + 1) := this
        _ ≤ 16 ^ s.length * 16 * (m + 1) := by
          rw [mul_assoc]; exact Nat.mul_le_mul_left _ (by omega)

theorem hexNat_lt {s : Str} {n : Nat} (h : hexNat s = some n) : n < 16 ^ s.length := by
  have := hexNat_lt' s 0 n h
  simpa using this

/-- `int(text, 16)` of a text without a minus sign. -/
theorem intHex_range {s : Str} {v : Int} (h : intHex s = some v) (hm : '-' ∉ s) : 0 ≤ v ∧ v < 16 ^ s.length := by
  have hl : (strip s).length ≤ s.length := stripBy_len _ _
  have hmem : ∀ c ∈ strip s, c ∈ s := fun c hc => stripBy_mem hc
  have key : ∀ (t : Str) (n : Nat), hexNat t = some n → t.length ≤ s.length → (0 : Int) ≤ n ∧ (n : Int) < 16 ^ s.length := by
    intro t n hn ht
    refine ⟨by positivity, ?_⟩
    have h1 := hexNat_lt hn
    have h2 : 16 ^ t.length ≤ 16 ^ s.length := Nat.pow_le_pow_right (by norm_num) ht
    have : n < 16 ^ s.length := lt_of_lt_of_le h1 h2
    exact_mod_cast this
  unfold intHex at h
  split at h
  · cases h
  · rename_i t heq
    exfalso
    exact hm (hmem '-' (by rw [heq]; simp))
  · rename_i t heq
    split_ifs at h
    cases ht : hexNat t with
    | none => rw [ht] at h; cases h
    | some n =>
      rw [ht] at h
      cases h
      exact key t n ht (by rw [heq, List.length_cons] at hl; omega)
  · cases ht : hexNat (strip s) with
    | none => rw [ht] at h; cases h
    | some n =>
      rw [ht] at h
      cases h
      exact key _ n ht hl

theorem black_range : ∀ n ∈ black.vals, InRange n := by
  intro n hn
  simp only [black, List.mem_cons, List.not_mem_nil, or_false, or_self] at hn
  subst hn; exact ⟨le_refl _, by norm_num⟩

theorem csshex_range {s : Str} (hm : '-' ∉ s) :
    (csshexToRgb s).vals.length = 3 ∧ (csshexToRgb s).isTuple = true ∧ ∀ n ∈ (csshexToRgb s).vals, InRange n := by
  have hm' : '-' ∉ (strip s).dropWhile (· = '#') := fun h => hm (stripBy_mem (dropWhile_mem h))
  unfold csshexToRgb
  dsimp only
  split
  · rename_i a b c d e f heq
    rw [heq] at hm'
    simp only [List.mem_cons, List.not_mem_nil, or_false, not_or] at hm'
    split
    · rename_i r g bb h1 h2 h3
      refine ⟨rfl, rfl, ?_⟩
      have i1 := intHex_range h1 (by simp [hm'])
      have i2 := intHex_range h2 (by simp [hm'])
      have i3 := intHex_range h3 (by simp [hm'])
      norm_num at i1 i2 i3
      intro n hn
      simp only [List.mem_cons, List.not_mem_nil, or_false] at hn
      rcases hn with rfl | rfl | rfl <;> constructor <;> omega
    · exact ⟨rfl, rfl, black_range⟩
  · rename_i a b c heq
    rw [heq] at hm'
    simp only [List.mem_cons, List.not_mem_nil, or_false, not_or] at hm'
    split
    · rename_i r g bb h1 h2 h3
      refine ⟨rfl, rfl, ?_⟩
      have i1 := intHex_range h1 (by simp [hm'])
      have i2 := intHex_range h2 (by simp [hm'])
      have i3 := intHex_range h3 (by simp [hm'])
      norm_num at i1 i2 i3
      intro n hn
      simp only [List.mem_cons, List.not_mem_nil, or_false] at hn
      rcases hn with rfl | rfl | rfl <;> constructor <;> omega
    · exact ⟨rfl, rfl, black_range⟩
  · exact ⟨rfl, rfl, black_range⟩

theorem clamp_range (n : Int) : InRange (clampC n) := by unfold clampC InRange; omega

theorem channel_range (env : CssEnv) (hov : ∀ t, env.pct t ≠ .overflow) (s : Str) : ∃ n, parseChannel env s = .ok n ∧ InRange n := by
  unfold parseChannel
  dsimp only
  split
  · split
    · exact ⟨_, rfl, clamp_range _⟩
    · rename_i h; exact absurd h (hov _)
    · exact ⟨_, rfl, clamp_range _⟩
  · split <;> exact ⟨_, rfl, clamp_range _⟩

theorem channels_range (env : CssEnv) (hov : ∀ t, env.pct t ≠ .overflow) (l : List Str) :
    ∃ ns, channels env l = .ok ns ∧ ns.length = l.length ∧ ∀ n ∈ ns, InRange n := by
  induction l with
  | nil => exact ⟨[], rfl, rfl, by simp⟩
  | cons s l ih =>
    obtain ⟨n, h1, h2⟩ := channel_range env hov s
    obtain ⟨ns, h3, h4, h5⟩ := ih
    refine ⟨n :: ns, ?_, by simp [h4], ?_⟩
    · simp only [channels, h1, h3]; rfl
    · intro m hm
      rcases List.mem_cons.1 hm with rfl | hm
      · exact h2
      · exact h5 m hm

theorem cssrgb_range (env : CssEnv) (hov : ∀ t, env.pct t ≠ .overflow) (s : Str) :
    ∃ rgb, cssrgbToRgb env s = .ok rgb ∧ (rgb.vals.length = 3 ∨ rgb.vals.length = 4) ∧ rgb.isTuple = false ∧ ∀ n ∈ rgb.vals, InRange n := by
  unfold cssrgbToRgb
  dsimp only
  obtain ⟨ns, h1, h2, h3⟩ := channels_range env hov
    ((splitC ',' (stripBy (· ∈ ['r', 'g', 'b', 'a', '(', ')', ' ']) (strip s))).take 4)
  refine ⟨⟨ns ++ List.replicate (3 - ns.length) 0, false⟩, ?_, ?_, rfl, ?_⟩
  · rw [h1]; rfl
  · have : ns.length ≤ 4 := by rw [h2, List.length_take]; omega
    simp only [List.length_append, List.length_replicate]; omega
  · intro n hn
    rcases List.mem_append.1 hn with hn | hn
    · exact h3 n hn
    · rw [List.eq_of_mem_replicate hn]; exact ⟨le_refl _, by norm_num⟩

theorem named_range {s : Str} {rgb : Rgb} (h : namedColor s = some rgb) :
    rgb.vals.length = 3 ∧ rgb.isTuple = true ∧ ∀ n ∈ rgb.vals, InRange n := by
  unfold namedColor at h
  cases hl : cssColors.lookup s with
  | none => rw [hl] at h; cases h
  | some c =>
    rw [hl] at h
    cases h
    have hall : ∀ x ∈ cssColors, (0 ≤ x.2.1 ∧ x.2.1 ≤ 255) ∧ (0 ≤ x.2.2.1 ∧ x.2.2.1 ≤ 255) ∧ (0 ≤ x.2.2.2 ∧ x.2.2.2 ≤ 255) := by
      decide +kernel
    have hmem : (s, c) ∈ cssColors := by
      have : ∀ l : List (Str × Int × Int × Int), l.lookup s = some c → (s, c) ∈ l := by
        intro l
        induction l with
        | nil => intro h; cases h
        | cons x l ih =>
          obtain ⟨k, v⟩ := x
          intro h
          rw [List.lookup_cons] at h
          by_cases hk : s = k
          · subst hk
            simp only [beq_self_eq_true] at h
            cases h; simp
          · have : (s == k) = false := by simpa using hk
            rw [this] at h
            exact List.mem_cons_of_mem _ (ih h)
      exact this _ hl
    obtain ⟨h1, h2, h3⟩ := hall _ hmem
    refine ⟨rfl, rfl, ?_⟩
    intro n hn
    simp only [List.mem_cons, List.not_mem_nil, or_false] at hn
    rcases hn with rfl | rfl | rfl
    · exact h1
    · exact h2
    · exact h3

theorem lower_minus {s : Str} (h : '-' ∉ s) : '-' ∉ lowerS s := by
  intro hm
  unfold lowerS at hm
  obtain ⟨c, hc, he⟩ := List.mem_map.1 hm
  unfold lowerC at he
  split at he
  · rename_i h1
    have hb : ∀ n : Nat, n < 91 → 65 ≤ n → Char.ofNat (n + 32) ≠ '-' := by decide +kernel
    exact hb c.toNat (Nat.lt_succ_of_le h1.2) h1.1 he
  · rw [he] at hc; exact h hc

/-- **C73**, parsing: for every text whose `#` form contains no minus sign, and if no percentage overflows, `csscolor_to_rgb`
returns three (or four, with alpha) channels in 0..255; exactly three, as a tuple, unless the text begins with `rgb`.
Missing: `#` colours with a minus sign and infinite percentages (`C73_refuted`). -/
theorem C73_range_partial (env : CssEnv) (hov : ∀ t, env.pct t ≠ .overflow) (s : Str)
    (h : startsWith "#".toList (lowerS (strip s)) = true → '-' ∉ s) :
    ∃ rgb, csscolorToRgb env s = .ok rgb ∧ (rgb.vals.length = 3 ∨ rgb.vals.length = 4) ∧ (∀ n ∈ rgb.vals, InRange n) ∧
      (startsWith "rgb".toList (lowerS (strip s)) = false → rgb.vals.length = 3 ∧ rgb.isTuple = true) := by
  unfold csscolorToRgb
  dsimp only
  by_cases h1 : startsWith "#".toList (lowerS (strip s)) = true
  · rw [if_pos h1]
    obtain ⟨a, b, c⟩ := csshex_range (s := lowerS (strip s)) (lower_minus fun hm => h h1 (stripBy_mem hm))
    exact ⟨_, rfl, Or.inl a, c, fun _ => ⟨a, b⟩⟩
  · rw [if_neg h1]
    by_cases h2 : startsWith "rgb".toList (lowerS (strip s)) = true
    · rw [if_pos h2]
      obtain ⟨rgb, a, b, c, d⟩ := cssrgb_range env hov (lowerS (strip s))
      exact ⟨rgb, a, b, d, fun h => by rw [h2] at h; cases h⟩
    · rw [if_neg h2]
      by_cases h3 : startsWith "hsl".toList (lowerS (strip s)) = true
      · rw [if_pos h3]
        exact ⟨_, rfl, Or.inl rfl, black_range, fun _ => ⟨rfl, rfl⟩⟩
      · rw [if_neg h3]
        cases hn : namedColor (lowerS (strip s)) with
        | some rgb =>
          obtain ⟨a, b, c⟩ := named_range hn
          exact ⟨_, rfl, Or.inl a, c, fun _ => ⟨a, b⟩⟩
        | none =>
          dsimp only
          split
          · rename_i hall
            have hm : '-' ∉ lowerS (strip s) := by
              intro hm
              rw [List.all_eq_true] at hall
              have := hall '-' hm
              exact absurd this (by decide +kernel)
            obtain ⟨a, b, c⟩ := csshex_range hm
            exact ⟨_, rfl, Or.inl a, c, fun _ => ⟨a, b⟩⟩
          · exact ⟨_, rfl, Or.inl rfl, black_range, fun _ => ⟨rfl, rfl⟩⟩

/-- What `'%02x'` prints for a channel, and that it is read back. -/
theorem hex2_channel {n : Int} (h : InRange n) : ∃ a b, hex2 n = [a, b] ∧ LowHex a ∧ LowHex b ∧ intHex [a, b] = some n := by
  have hall : ∀ k : Nat, k < 256 → (match hex2 (Int.ofNat k) with
      | [a, b] => decide (LowHex a) && decide (LowHex b) && (intHex [a, b] == some (Int.ofNat k))
      | _ => false) = true := by decide +kernel
  obtain ⟨k, rfl⟩ : ∃ k : Nat, n = Int.ofNat k := ⟨n.toNat, by have := h.1; simp [h.1]⟩
  have hk : k < 256 := by have := h.2; simp at this; omega
  have := hall k hk
  cases he : hex2 (Int.ofNat k) with
  | nil => rw [he] at this; cases this
  | cons a t =>
    cases t with
    | nil => rw [he] at this; cases this
    | cons b t =>
      cases t with
      | cons c t => rw [he] at this; cases this
      | nil =>
        rw [he] at this
        simp only [Bool.and_eq_true, decide_eq_true_eq, beq_iff_eq] at this
        exact ⟨a, b, rfl, this.1.1, this.1.2, this.2⟩

theorem lowHex_props {c : Char} (h : LowHex c) : lowerC c = c ∧ isWs c = false ∧ c ≠ '#' := by
  have hall : ∀ c ∈ "0123456789abcdef".toList, lowerC c = c ∧ isWs c = false ∧ c ≠ '#' := by decide +kernel
  exact hall c h

/-- **C73**, round trip: formatting any colour as `#rrggbb` and parsing it gives the colour back. -/
theorem C73_round_trip (env : CssEnv) {r g b : Int} (hr : InRange r) (hg : InRange g) (hb : InRange b) :
    ∃ t, formatRgb ⟨[r, g, b], true⟩ = .ok t ∧ IsHexColor t ∧ csscolorToRgb env t = .ok ⟨[r, g, b], true⟩ := by
  obtain ⟨r1, r2, er, hr1, hr2, vr⟩ := hex2_channel hr
  obtain ⟨g1, g2, eg, hg1, hg2, vg⟩ := hex2_channel hg
  obtain ⟨b1, b2, eb, hb1, hb2, vb⟩ := hex2_channel hb
  refine ⟨['#', r1, r2, g1, g2, b1, b2], ?_, ⟨r1, r2, g1, g2, b1, b2, rfl, ?_⟩, ?_⟩
  · simp [formatRgb, er, eg, eb]
  · intro x hx
    simp only [List.mem_cons, List.not_mem_nil, or_false] at hx
    rcases hx with rfl | rfl | rfl | rfl | rfl | rfl <;> assumption
  · have hs : strip ['#', r1, r2, g1, g2, b1, b2] = ['#', r1, r2, g1, g2, b1, b2] := by
      apply stripBy_id
      · intro c hc; cases hc; decide +kernel
      · intro c hc
        have : b2 = c := by simpa using hc
        rw [← this]; exact (lowHex_props hb2).2.1
    have hlow : lowerS ['#', r1, r2, g1, g2, b1, b2] = ['#', r1, r2, g1, g2, b1, b2] := by
      simp only [lowerS, List.map_cons, List.map_nil, (lowHex_props hr1).1, (lowHex_props hr2).1, (lowHex_props hg1).1,
        (lowHex_props hg2).1, (lowHex_props hb1).1, (lowHex_props hb2).1]
      rfl
    unfold csscolorToRgb
    dsimp only
    rw [hs, hlow]
    have hst : startsWith "#".toList ['#', r1, r2, g1, g2, b1, b2] = true := by simp [startsWith]
    rw [if_pos hst]
    unfold csshexToRgb
    have hd : (strip ['#', r1, r2, g1, g2, b1, b2]).dropWhile (· = '#') = [r1, r2, g1, g2, b1, b2] := by
      rw [hs]
      simp [List.dropWhile, (lowHex_props hr1).2.2]
    rw [hd]
    simp only [vr, vg, vb]

theorem formatRgb_hex {rgb : Rgb} (ht : rgb.isTuple = true) (hl : rgb.vals.length = 3) (hr : ∀ n ∈ rgb.vals, InRange n) :
    ∃ t, formatRgb rgb = .ok t ∧ IsHexColor t := by
  obtain ⟨vals, isT⟩ := rgb
  have ht : isT = true := ht
  subst ht
  match vals, hl with
  | [r, g, b], _ =>
    obtain ⟨t, h1, h2, -⟩ := C73_round_trip ⟨fun _ => .bad⟩ (hr r (by simp)) (hr g (by simp)) (hr b (by simp))
    exact ⟨t, h1, h2⟩

/-- **C73**, conversion of text: `csscolor_to_cssrgb` returns `#rrggbb` for every text that does not begin with `rgb` and whose
`#` form contains no minus sign.  Missing: `rgb(...)`, which always raises `TypeError` (`C73_refuted`). -/
theorem C73_convert_text_partial (env : CssEnv) (hov : ∀ t, env.pct t ≠ .overflow) (s : Str)
    (h : startsWith "#".toList (lowerS (strip s)) = true → '-' ∉ s) (hrgb : startsWith "rgb".toList (lowerS (strip s)) = false) :
    ∃ t, csscolorToCssrgb (K := ℚ) env (.text s) = .ok t ∧ IsHexColor t := by
  obtain ⟨rgb, h1, -, h3, h4⟩ := C73_range_partial env hov s h
  obtain ⟨h5, h6⟩ := h4 hrgb
  obtain ⟨t, h7, h8⟩ := formatRgb_hex h6 h5 h3
  refine ⟨t, ?_, h8⟩
  show (do let rgb ← csscolorToRgb env s; formatRgb rgb) = _
  rw [h1]
  exact h7

/-- **C73**, conversion of numbers: `csscolor_to_cssrgb` returns `#rrggbb` for every number that is not negative. -/
theorem C73_convert_number_partial (env : CssEnv) (x : ℚ) (hx : 0 ≤ x) :
    ∃ t, csscolorToCssrgb env (.num x) = .ok t ∧ IsHexColor t := by
  have hg : InRange (grayOf x) := by
    have hfl : ∀ q : ℚ, 0 ≤ q → q < 256 → InRange (truncRat q) := by
      intro q h0 h1
      unfold truncRat
      rw [if_pos h0]
      refine ⟨Int.floor_nonneg.2 h0, ?_⟩
      have : ⌊q⌋ < 256 := Int.floor_lt.2 (by exact_mod_cast h1)
      omega
    unfold grayOf
    split
    · rename_i h
      have h : 0 < x ∧ x < 1 := by
        simpa [PyFloat.zero, PyFloat.one, PyFloat.lt, PyFloat.ofInt] using h
      have : (trunc (x *. ofInt 255) : Int) = truncRat (x * 255) := rfl
      rw [this]
      apply hfl
      · nlinarith [h.1]
      · nlinarith [h.2]
    · split
      · rename_i h
        have h : x < 256 := by simpa [PyFloat.lt, PyFloat.ofInt] using h
        exact hfl x hx h
      · exact ⟨le_refl _, by norm_num⟩
  exact formatRgb_hex rfl rfl (by
    intro n hn
    simp only [List.mem_cons, List.not_mem_nil, or_false, or_self] at hn
    rw [hn]; exact hg)

/-- **C73** is refuted: a minus sign in a hexadecimal colour gives negative channels; an `rgb(...)` colour cannot be converted
(`TypeError`); a negative number does not give `#rrggbb`; an infinite percentage raises `OverflowError`. -/
theorem C73_refuted (env : CssEnv) :
    csscolorToRgb env "#-1-2-f".toList = .ok ⟨[-1, -2, -15], true⟩ ∧
    csscolorToCssrgb (K := ℚ) env (.text "rgb(1,2,3)".toList) = .error .typeError ∧
    csscolorToCssrgb env (.num (-5 : ℚ)) = .ok "#-5-5-5".toList ∧
    (∀ e : CssEnv, e.pct "1e999".toList = .overflow → csscolorToRgb e "rgb(1e999%,0,0)".toList = .error .runtime) := by
  refine ⟨by rfl, by rfl, by rfl, ?_⟩
  intro e he
  have h1 : csscolorToRgb e "rgb(1e999%,0,0)".toList = cssrgbToRgb e "rgb(1e999%,0,0)".toList := rfl
  rw [h1]
  unfold cssrgbToRgb
  have h3 : (splitC ',' (stripBy (· ∈ ['r', 'g', 'b', 'a', '(', ')', ' ']) (strip "rgb(1e999%,0,0)".toList))).take 4
      = ["1e999%".toList, "0".toList, "0".toList] := by decide +kernel
  dsimp only
  rw [h3]
  have h4 : parseChannel e "1e999%".toList = .error .runtime := by
    unfold parseChannel
    dsimp only
    have h5 : strip "1e999%".toList = "1e999%".toList := by decide +kernel
    have h6 : (("1e999%".toList).reverse.dropWhile (· = '%')).reverse = "1e999".toList := by decide +kernel
    rw [h5, if_pos (by decide +kernel), h6, he]
  simp only [channels, h4]
  rfl

/-- Non-vacuity: a named colour, a short form and a percentage. -/
example : csscolorToRgb ⟨fun _ => .val 127⟩ " CornflowerBlue".toList = .ok ⟨[100, 149, 237], true⟩ ∧
    csscolorToRgb ⟨fun _ => .val 127⟩ "#fA0".toList = .ok ⟨[255, 170, 0], true⟩ ∧
    csscolorToRgb ⟨fun _ => .val 127⟩ "rgb(300, 50%, 7)".toList = .ok ⟨[255, 127, 7], false⟩ := by
  exact ⟨rfl, rfl, rfl⟩

/-! ## C74: inline styles -/

/-- Specification: a name or value that survives the text form: not empty, no separator in it, no blanks around it. -/
def Plain (s : Str) : Prop := s ≠ [] ∧ ';' ∉ s ∧ ':' ∉ s ∧ stripBy isSvgWs s = s

theorem splitC_none {sep : Char} {s : Str} (h : sep ∉ s) : splitC sep s = [s] := by
  induction s with
  | nil => rfl
  | cons c s ih =>
    simp only [List.mem_cons, not_or] at h
    rw [splitC, if_neg (fun e => h.1 e.symm), ih h.2]

theorem splitC_append {sep : Char} {s t : Str} (h : sep ∉ s) : splitC sep (s ++ sep :: t) = s :: splitC sep t := by
  induction s with
  | nil => rw [List.nil_append, splitC, if_pos rfl]
  | cons c s ih =>
    simp only [List.mem_cons, not_or] at h
    rw [List.cons_append, splitC, if_neg (fun e => h.1 e.symm), ih h.2]

theorem splitC_join {sep : Char} (ps : List Str) (hne : ps ≠ []) (h : ∀ p ∈ ps, sep ∉ p) : splitC sep (joinWith sep ps) = ps := by
  induction ps with
  | nil => exact absurd rfl hne
  | cons p ps ih =>
    cases ps with
    | nil => exact splitC_none (h p (by simp))
    | cons q ps =>
      rw [joinWith, splitC_append (h p (by simp)), ih (by simp) fun x hx => h x (by simp [hx])]

theorem set_new (d : Style) {n v : Str} (h : n ∉ d.map Prod.fst) : d.set n v = d ++ [(n, v)] := by
  induction d with
  | nil => rfl
  | cons x d ih =>
    obtain ⟨k, w⟩ := x
    simp only [List.map_cons, List.mem_cons, not_or] at h
    rw [Style.set, if_neg (fun e => h.1 e.symm), ih h.2]
    rfl

theorem styleLoop_plain (rest : Style) : ∀ d : Style, (∀ x ∈ rest, Plain x.1 ∧ Plain x.2) → ((d ++ rest).map Prod.fst).Nodup →
    styleLoop d (rest.map fun x => x.1 ++ ':' :: x.2) = .ok (d ++ rest) := by
  induction rest with
  | nil => intro d _ _; simp [styleLoop]
  | cons x rest ih =>
    intro d hp hnd
    obtain ⟨n, v⟩ := x
    obtain ⟨hn, hv⟩ := hp (n, v) (by simp)
    have hsplit : splitC ':' (n ++ ':' :: v) = [n, v] := by
      rw [splitC_append hn.2.2.1, splitC_none hv.2.2.1]
    have hnew : n ∉ d.map Prod.fst := by
      rw [List.map_append, List.nodup_append] at hnd
      intro hmem
      exact hnd.2.2 n hmem n (by simp) rfl
    have hemp : (n ++ ':' :: v).isEmpty = false := by cases n <;> rfl
    have e1 : n.isEmpty = false := by have := hn.1; cases n <;> simp_all
    have e2 : v.isEmpty = false := by have := hv.1; cases v <;> simp_all
    simp only [List.map_cons, styleLoop, hemp, Bool.false_eq_true, if_false, hsplit, hn.2.2.2, hv.2.2.2, e1, e2, Bool.not_false,
      Bool.and_self, if_true]
    rw [set_new d hnew, ih (d ++ [(n, v)]) (fun x hx => hp x (by simp [hx])) (by simpa using hnd)]
    simp

/-- **C74**: formatting a style dictionary (its items in any order) and parsing the text returns the dictionary, for all
names and values that are not empty, have no blanks around them and contain neither `;` nor `:`.  Missing: values that
contain `:` (`C74_refuted`). -/
theorem C74_round_trip_partial (d : Style) (hnd : (d.map Prod.fst).Nodup) (hp : ∀ x ∈ d, Plain x.1 ∧ Plain x.2) :
    inlineStyleToDict (some (dictToInlineStyle d)) = .ok d := by
  cases d with
  | nil => rfl
  | cons x d =>
    have hsplit : splitC ';' (dictToInlineStyle (x :: d)) = (x :: d).map fun x => x.1 ++ ':' :: x.2 := by
      unfold dictToInlineStyle
      apply splitC_join _ (by simp)
      intro p hp'
      obtain ⟨y, hy, rfl⟩ := List.mem_map.1 hp'
      obtain ⟨h1, h2⟩ := hp y hy
      simp only [List.mem_append, List.mem_cons, not_or]
      exact ⟨h1.2.1, by decide, h2.2.1⟩
    have hloop := styleLoop_plain (x :: d) [] hp (by simpa using hnd)
    rw [List.nil_append, ← hsplit] at hloop
    unfold inlineStyleToDict
    cases ht : dictToInlineStyle (x :: d) with
    | nil =>
      exfalso
      unfold dictToInlineStyle at ht
      have := (hp x (by simp)).1.1
      cases d with
      | nil => simp [joinWith] at ht
      | cons y d => simp [joinWith] at ht
    | cons c t => rw [ht] at hloop; exact hloop

/-- **C74** is refuted: a value with a colon (a URL) makes parsing raise `ValueError`. -/
theorem C74_refuted : inlineStyleToDict (some (dictToInlineStyle [("fill".toList, "url(http://x)".toList)])) = .error .valueError ∧
    ';' ∉ "url(http://x)".toList ∧ stripBy isSvgWs "url(http://x)".toList = "url(http://x)".toList := by
  decide +kernel

/-- Non-vacuity. -/
example : inlineStyleToDict (some (dictToInlineStyle [("fill".toList, "none".toList), ("stroke-width".toList, "2 px".toList)])) =
    .ok [("fill".toList, "none".toList), ("stroke-width".toList, "2 px".toList)] := by
  apply C74_round_trip_partial
  · decide +kernel
  · intro x hx
    simp only [List.mem_cons, List.not_mem_nil, or_false] at hx
    rcases hx with rfl | rfl <;> (unfold Plain; decide +kernel)

end Verif.Css
