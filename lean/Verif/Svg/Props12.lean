import Verif.Svg.Props6
import Verif.Svg.Props9

/-!
# C73, C74, C85: what colours, styles and font units mean
-/

set_option linter.unusedSectionVars false

namespace Verif.Css
open Verif PyFloat

/-! ## C73: the meaning of colours -/

/-- Specification: `c` is the hexadecimal digit for `v`, in either case. -/
def IsHexDigit (c : Char) (v : Nat) : Prop := "0123456789abcdef".toList[v]? = some c ∨ "0123456789ABCDEF".toList[v]? = some c

/-- Specification: the extended colour keywords of CSS Color Module Level 3, section 4.3, as `0xRRGGBB`. -/
def w3cColors : List (String × Nat) := [
  ("aliceblue", 0xF0F8FF),
  ("antiquewhite", 0xFAEBD7),
  ("aqua", 0x00FFFF),
  ("aquamarine", 0x7FFFD4),
  ("azure", 0xF0FFFF),
  ("beige", 0xF5F5DC),
  ("bisque", 0xFFE4C4),
  ("black", 0x000000),
  ("blanchedalmond", 0xFFEBCD),
  ("blue", 0x0000FF),
  ("blueviolet", 0x8A2BE2),
  ("brown", 0xA52A2A),
  ("burlywood", 0xDEB887),
  ("cadetblue", 0x5F9EA0),
  ("chartreuse", 0x7FFF00),
  ("chocolate", 0xD2691E),
  ("coral", 0xFF7F50),
  ("cornflowerblue", 0x6495ED),
  ("cornsilk", 0xFFF8DC),
  ("crimson", 0xDC143C),
  ("cyan", 0x00FFFF),
  ("darkblue", 0x00008B),
  ("darkcyan", 0x008B8B),
  ("darkgoldenrod", 0xB8860B),
  ("darkgray", 0xA9A9A9),
  ("darkgreen", 0x006400),
  ("darkgrey", 0xA9A9A9),
  ("darkkhaki", 0xBDB76B),
  ("darkmagenta", 0x8B008B),
  ("darkolivegreen", 0x556B2F),
  ("darkorange", 0xFF8C00),
  ("darkorchid", 0x9932CC),
  ("darkred", 0x8B0000),
  ("darksalmon", 0xE9967A),
  ("darkseagreen", 0x8FBC8F),
  ("darkslateblue", 0x483D8B),
  ("darkslategray", 0x2F4F4F),
  ("darkslategrey", 0x2F4F4F),
  ("darkturquoise", 0x00CED1),
  ("darkviolet", 0x9400D3),
  ("deeppink", 0xFF1493),
  ("deepskyblue", 0x00BFFF),
  ("dimgray", 0x696969),
  ("dimgrey", 0x696969),
  ("dodgerblue", 0x1E90FF),
  ("firebrick", 0xB22222),
  ("floralwhite", 0xFFFAF0),
  ("forestgreen", 0x228B22),
  ("fuchsia", 0xFF00FF),
  ("gainsboro", 0xDCDCDC),
  ("ghostwhite", 0xF8F8FF),
  ("gold", 0xFFD700),
  ("goldenrod", 0xDAA520),
  ("gray", 0x808080),
  ("green", 0x008000),
  ("greenyellow", 0xADFF2F),
  ("grey", 0x808080),
  ("honeydew", 0xF0FFF0),
  ("hotpink", 0xFF69B4),
  ("indianred", 0xCD5C5C),
  ("indigo", 0x4B0082),
  ("ivory", 0xFFFFF0),
  ("khaki", 0xF0E68C),
  ("lavender", 0xE6E6FA),
  ("lavenderblush", 0xFFF0F5),
  ("lawngreen", 0x7CFC00),
  ("lemonchiffon", 0xFFFACD),
  ("lightblue", 0xADD8E6),
  ("lightcoral", 0xF08080),
  ("lightcyan", 0xE0FFFF),
  ("lightgoldenrodyellow", 0xFAFAD2),
  ("lightgray", 0xD3D3D3),
  ("lightgreen", 0x90EE90),
  ("lightgrey", 0xD3D3D3),
  ("lightpink", 0xFFB6C1),
  ("lightsalmon", 0xFFA07A),
  ("lightseagreen", 0x20B2AA),
  ("lightskyblue", 0x87CEFA),
  ("lightslategray", 0x778899),
  ("lightslategrey", 0x778899),
  ("lightsteelblue", 0xB0C4DE),
  ("lightyellow", 0xFFFFE0),
  ("lime", 0x00FF00),
  ("limegreen", 0x32CD32),
  ("linen", 0xFAF0E6),
  ("magenta", 0xFF00FF),
  ("maroon", 0x800000),
  ("mediumaquamarine", 0x66CDAA),
  ("mediumblue", 0x0000CD),
  ("mediumorchid", 0xBA55D3),
  ("mediumpurple", 0x9370DB),
  ("mediumseagreen", 0x3CB371),
  ("mediumslateblue", 0x7B68EE),
  ("mediumspringgreen", 0x00FA9A),
  ("mediumturquoise", 0x48D1CC),
  ("mediumvioletred", 0xC71585),
  ("midnightblue", 0x191970),
  ("mintcream", 0xF5FFFA),
  ("mistyrose", 0xFFE4E1),
  ("moccasin", 0xFFE4B5),
  ("navajowhite", 0xFFDEAD),
  ("navy", 0x000080),
  ("oldlace", 0xFDF5E6),
  ("olive", 0x808000),
  ("olivedrab", 0x6B8E23),
  ("orange", 0xFFA500),
  ("orangered", 0xFF4500),
  ("orchid", 0xDA70D6),
  ("palegoldenrod", 0xEEE8AA),
  ("palegreen", 0x98FB98),
  ("paleturquoise", 0xAFEEEE),
  ("palevioletred", 0xDB7093),
  ("papayawhip", 0xFFEFD5),
  ("peachpuff", 0xFFDAB9),
  ("peru", 0xCD853F),
  ("pink", 0xFFC0CB),
  ("plum", 0xDDA0DD),
  ("powderblue", 0xB0E0E6),
  ("purple", 0x800080),
  ("red", 0xFF0000),
  ("rosybrown", 0xBC8F8F),
  ("royalblue", 0x4169E1),
  ("saddlebrown", 0x8B4513),
  ("salmon", 0xFA8072),
  ("sandybrown", 0xF4A460),
  ("seagreen", 0x2E8B57),
  ("seashell", 0xFFF5EE),
  ("sienna", 0xA0522D),
  ("silver", 0xC0C0C0),
  ("skyblue", 0x87CEEB),
  ("slateblue", 0x6A5ACD),
  ("slategray", 0x708090),
  ("slategrey", 0x708090),
  ("snow", 0xFFFAFA),
  ("springgreen", 0x00FF7F),
  ("steelblue", 0x4682B4),
  ("tan", 0xD2B48C),
  ("teal", 0x008080),
  ("thistle", 0xD8BFD8),
  ("tomato", 0xFF6347),
  ("turquoise", 0x40E0D0),
  ("violet", 0xEE82EE),
  ("wheat", 0xF5DEB3),
  ("white", 0xFFFFFF),
  ("whitesmoke", 0xF5F5F5),
  ("yellow", 0xFFFF00),
  ("yellowgreen", 0x9ACD32)]

/-- Specification: the white space of SVG and CSS. -/
def Blank (s : Str) : Prop := ∀ c ∈ s, c ∈ [' ', '\t', '\r', '\n', '\x0c']

/-- Specification: neither begins nor ends with white space. -/
def Trimmed (s : Str) : Prop := (∀ c, s.head? = some c → ¬ Blank [c]) ∧ ∀ c, s.getLast? = some c → ¬ Blank [c]

theorem dropWhile_append_all {p : Char → Bool} {a t : Str} (h : ∀ c ∈ a, p c = true) : (a ++ t).dropWhile p = t.dropWhile p := by
  induction a with
  | nil => rfl
  | cons c a ih =>
    rw [List.cons_append, List.dropWhile_cons, if_pos (h c (by simp)), ih fun c hc => h c (by simp [hc])]

theorem dropWhile_head {p : Char → Bool} {s : Str} (h : ∀ c, s.head? = some c → p c = false) : s.dropWhile p = s := by
  cases s with
  | nil => rfl
  | cons c s => rw [List.dropWhile_cons, h c rfl]; rfl

/-- Stripping. -/
theorem stripBy_pad {p : Char → Bool} {a t b : Str} (ha : ∀ c ∈ a, p c = true) (hb : ∀ c ∈ b, p c = true)
    (h1 : ∀ c, t.head? = some c → p c = false) (h2 : ∀ c, t.getLast? = some c → p c = false) :
    stripBy p (a ++ (t ++ b)) = t := by
  unfold stripBy
  rw [dropWhile_append_all ha]
  cases t with
  | nil =>
    rw [List.nil_append]
    have : b.dropWhile p = [] := by rw [← List.append_nil b, dropWhile_append_all hb]; rfl
    rw [this]; rfl
  | cons c t =>
    rw [dropWhile_head (s := (c :: t) ++ b) (by intro x hx; exact h1 x (by simpa using hx)), List.reverse_append,
      dropWhile_append_all (by intro x hx; exact hb x (by simpa using hx)),
      dropWhile_head (by intro x hx; rw [List.head?_reverse] at hx; exact h2 x hx), List.reverse_reverse]

theorem hexDigit_val {c : Char} {v : Nat} (h : IsHexDigit c v) : hexVal c = some v ∧ v < 16 ∧ isWs c = false ∧ c ≠ '#' ∧
    c ≠ '-' ∧ c ≠ '+' ∧ IsHexDigit (lowerC c) v := by
  have hv : v < 16 := by
    rcases h with h | h
    · have := (List.getElem?_eq_some_iff.1 h).1; simpa using this
    · have := (List.getElem?_eq_some_iff.1 h).1; simpa using this
  have hall : ∀ v < 16, ∀ s ∈ ["0123456789abcdef".toList, "0123456789ABCDEF".toList],
      (s[v]?.all fun c => decide (hexVal c = some v ∧ isWs c = false ∧ c ≠ '#' ∧ c ≠ '-' ∧ c ≠ '+' ∧
        "0123456789abcdef".toList[v]? = some (lowerC c))) = true := by decide +kernel
  rcases h with h | h
  · have := hall v hv "0123456789abcdef".toList (List.mem_cons_self ..); rw [h] at this
    have := of_decide_eq_true this
    exact ⟨this.1, hv, this.2.1, this.2.2.1, this.2.2.2.1, this.2.2.2.2.1, .inl (h.trans this.2.2.2.2.2)⟩
  · have := hall v hv "0123456789ABCDEF".toList (List.mem_cons_of_mem _ (List.mem_cons_self ..)); rw [h] at this
    have := of_decide_eq_true this
    exact ⟨this.1, hv, this.2.1, this.2.2.1, this.2.2.2.1, this.2.2.2.2.1, .inl this.2.2.2.2.2⟩

theorem intHex2 {a b : Char} {x y : Nat} (ha : IsHexDigit a x) (hb : IsHexDigit b y) : intHex [a, b] = some ((16 * x + y : Nat) : Int) := by
  have h1 := hexDigit_val ha
  have h2 := hexDigit_val hb
  have hs : strip [a, b] = [a, b] := stripBy_id (by intro c hc; cases hc; exact h1.2.2.1)
    (by intro c hc; have : b = c := by simpa using hc
        subst this; exact h2.2.2.1)
  unfold intHex
  rw [hs]
  split
  · rename_i h; cases h
  · rename_i h; injection h with h; exact absurd h h1.2.2.2.2.1
  · rename_i h; injection h with h; exact absurd h h1.2.2.2.2.2.1
  · simp [hexNat, h1.1, h2.1]

theorem intHex1 {a : Char} {x : Nat} (ha : IsHexDigit a x) : intHex [a] = some ((x : Nat) : Int) := by
  have h1 := hexDigit_val ha
  have hs : strip [a] = [a] := stripBy_id (by intro c hc; cases hc; exact h1.2.2.1) (by intro c hc; cases hc; exact h1.2.2.1)
  unfold intHex
  rw [hs]
  split
  · rename_i h; cases h
  · rename_i h; injection h with h; exact absurd h h1.2.2.2.2.1
  · rename_i h; injection h with h; exact absurd h h1.2.2.2.2.2.1
  · simp [hexNat, h1.1]

/-- Blanks of SVG are blanks of Python. -/
theorem blank_ws {a : Str} (h : Blank a) : ∀ c ∈ a, isWs c = true := by
  intro c hc
  have hall : ∀ c ∈ [' ', '\t', '\r', '\n', '\x0c'], isWs c = true := by decide +kernel
  exact hall c (h c hc)

theorem blank_svg {a : Str} (h : Blank a) : ∀ c ∈ a, isSvgWs c = true := by
  intro c hc
  have hall : ∀ c ∈ [' ', '\t', '\r', '\n', '\x0c'], isSvgWs c = true := by decide +kernel
  exact hall c (h c hc)

theorem csshex_six {a b c d e f : Char} {u v w x y z : Nat} {pre post : Str} (hpre : Blank pre) (hpost : Blank post)
    (ha : IsHexDigit a u) (hb : IsHexDigit b v) (hc : IsHexDigit c w) (hd : IsHexDigit d x) (he : IsHexDigit e y)
    (hf : IsHexDigit f z) :
    csshexToRgb (pre ++ (['#', a, b, c, d, e, f] ++ post)) =
      ⟨[((16 * u + v : Nat) : Int), ((16 * w + x : Nat) : Int), ((16 * y + z : Nat) : Int)], true⟩ := by
  unfold csshexToRgb
  have hs : strip (pre ++ (['#', a, b, c, d, e, f] ++ post)) = ['#', a, b, c, d, e, f] := by
    apply stripBy_pad (blank_ws hpre) (blank_ws hpost)
    · intro c hc; cases hc; decide +kernel
    · intro c hc
      have : f = c := by simpa using hc
      subst this; exact (hexDigit_val hf).2.2.1
  have hdr : (['#', a, b, c, d, e, f] : Str).dropWhile (· = '#') = [a, b, c, d, e, f] := by
    simp [List.dropWhile, (hexDigit_val ha).2.2.2.1]
  rw [hs, hdr]
  simp only [intHex2 ha hb, intHex2 hc hd, intHex2 he hf]

theorem csshex_three {a b c : Char} {u v w : Nat} {pre post : Str} (hpre : Blank pre) (hpost : Blank post)
    (ha : IsHexDigit a u) (hb : IsHexDigit b v) (hc : IsHexDigit c w) :
    csshexToRgb (pre ++ (['#', a, b, c] ++ post)) = ⟨[((17 * u : Nat) : Int), ((17 * v : Nat) : Int), ((17 * w : Nat) : Int)], true⟩ := by
  unfold csshexToRgb
  have hs : strip (pre ++ (['#', a, b, c] ++ post)) = ['#', a, b, c] := by
    apply stripBy_pad (blank_ws hpre) (blank_ws hpost)
    · intro c hc; cases hc; decide +kernel
    · intro x hx
      have : c = x := by simpa using hx
      subst this; exact (hexDigit_val hc).2.2.1
  have hdr : (['#', a, b, c] : Str).dropWhile (· = '#') = [a, b, c] := by
    simp [List.dropWhile, (hexDigit_val ha).2.2.2.1]
  rw [hs, hdr]
  simp only [intHex1 ha, intHex1 hb, intHex1 hc, Rgb.mk.injEq, and_true]
  norm_num
  omega

/-- **C73**, hexadecimal colours: `#rrggbb` and `#rgb`, with digits in either case and white space around, mean what CSS says,
for both functions that read them. -/
theorem C73_hex_value (env : CssEnv) {a b c d e f : Char} {u v w x y z : Nat} {pre post : Str} (hpre : Blank pre) (hpost : Blank post)
    (ha : IsHexDigit a u) (hb : IsHexDigit b v) (hc : IsHexDigit c w) (hd : IsHexDigit d x) (he : IsHexDigit e y)
    (hf : IsHexDigit f z) :
    csshexToRgb (pre ++ (['#', a, b, c, d, e, f] ++ post)) =
      ⟨[((16 * u + v : Nat) : Int), ((16 * w + x : Nat) : Int), ((16 * y + z : Nat) : Int)], true⟩ ∧
    csscolorToRgb env (pre ++ (['#', a, b, c, d, e, f] ++ post)) =
      .ok ⟨[((16 * u + v : Nat) : Int), ((16 * w + x : Nat) : Int), ((16 * y + z : Nat) : Int)], true⟩ ∧
    csshexToRgb (pre ++ (['#', a, b, c] ++ post)) = ⟨[((17 * u : Nat) : Int), ((17 * v : Nat) : Int), ((17 * w : Nat) : Int)], true⟩ ∧
    csscolorToRgb env (pre ++ (['#', a, b, c] ++ post)) =
      .ok ⟨[((17 * u : Nat) : Int), ((17 * v : Nat) : Int), ((17 * w : Nat) : Int)], true⟩ := by
  have hl : lowerC '#' = '#' := by decide +kernel
  have nb : Blank [] := fun c hc => by cases hc
  refine ⟨csshex_six hpre hpost ha hb hc hd he hf, ?_, csshex_three hpre hpost ha hb hc, ?_⟩
  · have hs : strip (pre ++ (['#', a, b, c, d, e, f] ++ post)) = ['#', a, b, c, d, e, f] := by
      apply stripBy_pad (blank_ws hpre) (blank_ws hpost)
      · intro c hc; cases hc; decide +kernel
      · intro c hc
        have : f = c := by simpa using hc
        subst this; exact (hexDigit_val hf).2.2.1
    unfold csscolorToRgb
    dsimp only
    rw [hs]
    have hst : startsWith "#".toList (lowerS ['#', a, b, c, d, e, f]) = true := by simp [startsWith, lowerS, hl]
    rw [if_pos hst]
    have := csshex_six nb nb (hexDigit_val ha).2.2.2.2.2.2 (hexDigit_val hb).2.2.2.2.2.2 (hexDigit_val hc).2.2.2.2.2.2
      (hexDigit_val hd).2.2.2.2.2.2 (hexDigit_val he).2.2.2.2.2.2 (hexDigit_val hf).2.2.2.2.2.2
    rw [List.append_nil, List.nil_append] at this
    rw [show lowerS ['#', a, b, c, d, e, f] = ['#', lowerC a, lowerC b, lowerC c, lowerC d, lowerC e, lowerC f] by
      simp [lowerS, hl], this]
  · have hs : strip (pre ++ (['#', a, b, c] ++ post)) = ['#', a, b, c] := by
      apply stripBy_pad (blank_ws hpre) (blank_ws hpost)
      · intro c hc; cases hc; decide +kernel
      · intro x hx
        have : c = x := by simpa using hx
        subst this; exact (hexDigit_val hc).2.2.1
    unfold csscolorToRgb
    dsimp only
    rw [hs]
    have hst : startsWith "#".toList (lowerS ['#', a, b, c]) = true := by simp [startsWith, lowerS, hl]
    rw [if_pos hst]
    have := csshex_three nb nb (hexDigit_val ha).2.2.2.2.2.2 (hexDigit_val hb).2.2.2.2.2.2 (hexDigit_val hc).2.2.2.2.2.2
    rw [List.append_nil, List.nil_append] at this
    rw [show lowerS ['#', a, b, c] = ['#', lowerC a, lowerC b, lowerC c] by simp [lowerS, hl], this]

/-- Non-vacuity of the digits. -/
example : IsHexDigit 'C' 12 ∧ IsHexDigit 'c' 12 ∧ Blank [' ', '\n'] := by
  refine ⟨.inr (by decide +kernel), .inl (by decide +kernel), ?_⟩
  unfold Blank; decide +kernel

theorem w3c_known : ∀ p ∈ w3cColors, namedColor p.1.toList =
    some ⟨[((p.2 / 65536 : Nat) : Int), ((p.2 / 256 % 256 : Nat) : Int), ((p.2 % 256 : Nat) : Int)], true⟩ ∧
    startsWith "#".toList p.1.toList = false ∧ startsWith "rgb".toList p.1.toList = false ∧ startsWith "hsl".toList p.1.toList = false ∧
    (∀ c ∈ p.1.toList, 97 ≤ c.toNat ∧ c.toNat ≤ 122) ∧ p.1.toList ≠ [] := by decide +kernel

theorem lower_letter {c : Char} (h : 97 ≤ (lowerC c).toNat) : isWs c = false := by
  by_contra hc
  have hc : isWs c = true := by simpa using hc
  have hm : c ∈ [' ', '\t', '\n', '\r', '\x0b', '\x0c', '\x1c', '\x1d', '\x1e', '\x1f'] := by
    simpa [isWs] using hc
  have hall : ∀ c ∈ [' ', '\t', '\n', '\r', '\x0b', '\x0c', '\x1c', '\x1d', '\x1e', '\x1f'], (lowerC c).toNat < 97 := by decide +kernel
  exact absurd (hall c hm) (by omega)

/-- **C73**, names: every colour keyword of CSS3, in any mixture of cases and with white space around it, means the colour of
the standard. -/
theorem C73_names (env : CssEnv) (p : String × Nat) (hp : p ∈ w3cColors) {pre t post : Str} (hpre : Blank pre) (hpost : Blank post)
    (ht : lowerS t = p.1.toList) :
    csscolorToRgb env (pre ++ (t ++ post)) =
      .ok ⟨[((p.2 / 65536 : Nat) : Int), ((p.2 / 256 % 256 : Nat) : Int), ((p.2 % 256 : Nat) : Int)], true⟩ := by
  obtain ⟨h1, h2, h3, h4, h5, h6⟩ := w3c_known p hp
  have hw : ∀ c ∈ t, isWs c = false := by
    intro c hc
    apply lower_letter
    have : lowerC c ∈ p.1.toList := by rw [← ht]; exact List.mem_map_of_mem hc
    exact (h5 _ this).1
  have hs : strip (pre ++ (t ++ post)) = t := by
    apply stripBy_pad (blank_ws hpre) (blank_ws hpost)
    · intro c hc; exact hw c (List.mem_of_mem_head? hc)
    · intro c hc; exact hw c (List.mem_of_getLast? hc)
  unfold csscolorToRgb
  dsimp only
  rw [hs, ht, h2, h3, h4]
  simp only [Bool.false_eq_true, if_false, h1]

/-- Non-vacuity. -/
example : csscolorToRgb ⟨fun _ => .bad⟩ " TomatO\n".toList = .ok ⟨[255, 99, 71], true⟩ :=
  C73_names _ ("tomato", 0xFF6347) (by decide +kernel) (pre := " ".toList) (t := "TomatO".toList) (post := "\n".toList)
    (by unfold Blank; decide +kernel) (by unfold Blank; decide +kernel) (by decide +kernel)

/-! ## C74: the meaning of an inline style -/

/-- Specification: a declaration as written: white space, a name, white space, a colon, white space, a value, white space. -/
structure Decl where
  s1 : Str
  name : Str
  s2 : Str
  s3 : Str
  value : Str
  s4 : Str

/-- Its text. -/
def Decl.text (d : Decl) : Str := d.s1 ++ (d.name ++ d.s2) ++ ':' :: (d.s3 ++ (d.value ++ d.s4))

/-- Specification: the parts are what they are called; names and values contain no separators. -/
structure Decl.Valid (d : Decl) : Prop where
  s1 : Blank d.s1
  s2 : Blank d.s2
  s3 : Blank d.s3
  s4 : Blank d.s4
  name : Trimmed d.name ∧ ';' ∉ d.name ∧ ':' ∉ d.name
  value : Trimmed d.value ∧ ';' ∉ d.value ∧ ':' ∉ d.value

/-- Specification: a style text: declarations and empty pieces, separated by semicolons. -/
def pieceText : Option Decl → Str
  | none => []
  | some d => d.text

/-- Specification: the value a list of declarations gives to a property: that of the last one which names it and has a value. -/
def declared (ds : List (Option Decl)) (name : Str) : Option Str :=
  ((ds.filterMap id).filter fun d => d.name = name ∧ d.value ≠ []).getLast?.map Decl.value

theorem get_set (d : Style) (n v m : Str) : (d.set n v).get m = if m = n then some v else d.get m := by
  unfold Style.get
  induction d with
  | nil =>
    by_cases h : m = n
    · subst h; simp [Style.set, List.lookup]
    · have : (m == n) = false := by simpa using h
      simp [Style.set, List.lookup, this, h]
  | cons x d ih =>
    obtain ⟨k, w⟩ := x
    unfold Style.set
    by_cases hk : k = n
    · subst hk
      rw [if_pos rfl, List.lookup_cons, List.lookup_cons]
      by_cases h : m = k
      · subst h; simp
      · have : (m == k) = false := by simpa using h
        simp [this, h]
    · rw [if_neg hk, List.lookup_cons, List.lookup_cons, ih]
      by_cases h : m = k
      · subst h; simp [hk]
      · have : (m == k) = false := by simpa using h
        simp [this]

theorem set_nodup (d : Style) (n v : Str) (h : (d.map Prod.fst).Nodup) : ((d.set n v).map Prod.fst).Nodup ∧
    ∀ k, k ∈ (d.set n v).map Prod.fst → k = n ∨ k ∈ d.map Prod.fst := by
  induction d with
  | nil => simp [Style.set]
  | cons x d ih =>
    obtain ⟨k, w⟩ := x
    rw [List.map_cons, List.nodup_cons] at h
    unfold Style.set
    by_cases hk : k = n
    · subst hk
      rw [if_pos rfl]
      refine ⟨by simpa using h, ?_⟩
      intro j hj
      exact .inr (by simpa using hj)
    · rw [if_neg hk, List.map_cons, List.nodup_cons]
      refine ⟨⟨?_, (ih h.2).1⟩, ?_⟩
      · intro hm
        rcases (ih h.2).2 k hm with h' | h'
        · exact hk h'
        · exact h.1 h'
      · intro j hj
        rcases List.mem_cons.1 hj with rfl | hj
        · exact .inr (by simp)
        · rcases (ih h.2).2 j hj with h' | h'
          · exact .inl h'
          · exact .inr (by simp [h'])

theorem trimmed_svg {t : Str} (h : Trimmed t) : (∀ c, t.head? = some c → isSvgWs c = false) ∧ ∀ c, t.getLast? = some c → isSvgWs c = false := by
  have key : ∀ c, ¬ Blank [c] → isSvgWs c = false := by
    intro c hc
    by_contra h'
    apply hc
    intro x hx
    have : x = c := by simpa using hx
    subst this
    have : isSvgWs x = true := by simpa using h'
    simpa [isSvgWs] using this
  exact ⟨fun c hc => key c (h.1 c hc), fun c hc => key c (h.2 c hc)⟩

theorem blank_sep {s : Str} (h : Blank s) : ':' ∉ s ∧ ';' ∉ s := by
  constructor <;> (intro hm; exact absurd (h _ hm) (by decide +kernel))

theorem styleLoop_meaning (ds : List (Option Decl)) (hv : ∀ d, some d ∈ ds → d.Valid) (acc : Style)
    (hacc : (acc.map Prod.fst).Nodup ∧ [] ∉ acc.map Prod.fst) :
    ∃ out, styleLoop acc (ds.map pieceText) = .ok out ∧ (out.map Prod.fst).Nodup ∧ [] ∉ out.map Prod.fst ∧
      ∀ name, name ≠ [] → out.get name = (declared ds name).or (acc.get name) := by
  induction ds generalizing acc with
  | nil => exact ⟨acc, rfl, hacc.1, hacc.2, fun name _ => by simp [declared]⟩
  | cons o ds ih =>
    cases o with
    | none =>
      obtain ⟨out, h1, h2, h3, h4⟩ := ih (fun d hd => hv d (by simp [hd])) acc hacc
      refine ⟨out, ?_, h2, h3, fun name hn => ?_⟩
      · rw [List.map_cons, styleLoop]
        exact h1
      · rw [h4 name hn]; rfl
    | some d =>
      have hd := hv d (by simp)
      have hsp : splitC ':' d.text = [d.s1 ++ (d.name ++ d.s2), d.s3 ++ (d.value ++ d.s4)] := by
        unfold Decl.text
        rw [splitC_append, splitC_none]
        · simp only [List.mem_append, not_or]
          exact ⟨(blank_sep hd.s3).1, hd.value.2.2, (blank_sep hd.s4).1⟩
        · simp only [List.mem_append, not_or]
          exact ⟨(blank_sep hd.s1).1, hd.name.2.2, (blank_sep hd.s2).1⟩
      have hnm : stripBy isSvgWs (d.s1 ++ (d.name ++ d.s2)) = d.name :=
        stripBy_pad (blank_svg hd.s1) (blank_svg hd.s2) (trimmed_svg hd.name.1).1 (trimmed_svg hd.name.1).2
      have hvl : stripBy isSvgWs (d.s3 ++ (d.value ++ d.s4)) = d.value :=
        stripBy_pad (blank_svg hd.s3) (blank_svg hd.s4) (trimmed_svg hd.value.1).1 (trimmed_svg hd.value.1).2
      have hne : d.text.isEmpty = false := by
        unfold Decl.text
        cases d.s1 <;> cases d.name <;> cases d.s2 <;> rfl
      have hstep : ∀ ps, styleLoop acc (d.text :: ps) =
          styleLoop (if !d.name.isEmpty && !d.value.isEmpty then acc.set d.name d.value else acc) ps := by
        intro ps
        rw [styleLoop, hne, hsp]
        simp only [Bool.false_eq_true, if_false, hnm, hvl]
      have hdecl : ∀ name, name ≠ [] → declared (some d :: ds) name =
          (declared ds name).or (if name = d.name ∧ d.value ≠ [] then some d.value else none) := by
        intro name _
        unfold declared
        simp only [List.filterMap_cons, id_eq]
        rw [List.filter_cons]
        by_cases hc : d.name = name ∧ d.value ≠ []
        · rw [if_pos (by simpa using hc), if_pos ⟨hc.1.symm, hc.2⟩]
          rw [List.getLast?_cons]
          cases (List.filter (fun d => decide (d.name = name ∧ d.value ≠ [])) (List.filterMap id ds)).getLast? <;> simp
        · rw [if_neg (by simpa using hc), if_neg fun h => hc ⟨h.1.symm, h.2⟩]
          simp
      by_cases hb : (!d.name.isEmpty && !d.value.isEmpty) = true
      · have hb' : d.name ≠ [] ∧ d.value ≠ [] := by simpa using hb
        obtain ⟨out, h1, h2, h3, h4⟩ := ih (fun d hd => hv d (by simp [hd])) (acc.set d.name d.value)
          ⟨(set_nodup acc _ _ hacc.1).1, fun h => ((set_nodup acc _ _ hacc.1).2 [] h).elim (fun e => hb'.1 e.symm) hacc.2⟩
        refine ⟨out, ?_, h2, h3, fun name hn => ?_⟩
        · rw [List.map_cons, show pieceText (some d) = d.text from rfl, hstep, if_pos hb]
          exact h1
        · rw [h4 name hn, get_set, hdecl name hn]
          by_cases he : name = d.name
          · simp [he, hb'.2]
          · simp [he]
      · have hb' : d.name = [] ∨ d.value = [] := by
          by_contra hcon
          push Not at hcon
          exact hb (by simpa using hcon)
        obtain ⟨out, h1, h2, h3, h4⟩ := ih (fun d hd => hv d (by simp [hd])) acc hacc
        refine ⟨out, ?_, h2, h3, fun name hn => ?_⟩
        · rw [List.map_cons, show pieceText (some d) = d.text from rfl, hstep, if_neg hb]
          exact h1
        · rw [h4 name hn, hdecl name hn, if_neg]
          · simp
          · rintro ⟨e1, e2⟩
            rcases hb' with h | h
            · rw [h] at e1; exact hn e1
            · exact e2 h

/-- **C74**, meaning: a style text of declarations and empty pieces is read without an error; every property gets the value of
the last declaration that names it and has a value, without the white space around it; nothing else gets a value, no name
occurs twice and the empty name not at all.  Missing: names or values that contain a colon (`C74_refuted`). -/
theorem C74_meaning_partial (ds : List (Option Decl)) (hv : ∀ d, some d ∈ ds → d.Valid) :
    ∃ out, inlineStyleToDict (some (joinWith ';' (ds.map pieceText))) = .ok out ∧ (out.map Prod.fst).Nodup ∧
      out.get [] = none ∧ ∀ name, name ≠ [] → out.get name = declared ds name := by
  obtain ⟨out, h1, h2, h3, h4⟩ := styleLoop_meaning ds hv [] ⟨by simp, by simp⟩
  have hnone : ∀ {o : Style} {k : Str}, k ∉ o.map Prod.fst → o.get k = none := by
    intro o k hk
    unfold Style.get
    rw [List.lookup_eq_none_iff]
    intro p hp
    simp only [bne_iff_ne, ne_eq, beq_eq_false_iff_ne]
    intro he
    exact hk (he ▸ List.mem_map_of_mem hp)
  have hsep : ∀ p ∈ ds.map pieceText, ';' ∉ p := by
    intro p hp
    obtain ⟨o, ho, rfl⟩ := List.mem_map.1 hp
    cases o with
    | none => simp [pieceText]
    | some d =>
      have hd := hv d ho
      simp only [pieceText, Decl.text, List.mem_append, List.mem_cons, not_or]
      exact ⟨⟨(blank_sep hd.s1).2, hd.name.2.1, (blank_sep hd.s2).2⟩, by decide, (blank_sep hd.s3).2, hd.value.2.1, (blank_sep hd.s4).2⟩
  refine ⟨out, ?_, h2, hnone h3, fun name hn => by rw [h4 name hn]; simp [Style.get]⟩
  cases hds : ds with
  | nil =>
    subst hds
    exact h1
  | cons o r =>
    have hj : splitC ';' (joinWith ';' (ds.map pieceText)) = ds.map pieceText := splitC_join _ (by simp [hds]) hsep
    cases ht : joinWith ';' (ds.map pieceText) with
    | nil =>
      rw [← hds, ht]
      rw [ht] at hj
      rw [← hj] at h1
      exact h1
    | cons c t =>
      rw [← hds, ht]
      rw [ht] at hj
      rw [← hj] at h1
      exact h1

/-- Non-vacuity: white space, a repeated name, an empty piece, an empty value. -/
example : ∃ out, inlineStyleToDict (some " fill: none ;;fill :red;stroke: ;a:b".toList) = .ok out ∧ out.get "fill".toList = some "red".toList ∧
    out.get "stroke".toList = none := by
  have hv : ∀ d, some d ∈ [some (⟨" ".toList, "fill".toList, [], " ".toList, "none".toList, " ".toList⟩ : Decl), none,
      some ⟨[], "fill".toList, " ".toList, [], "red".toList, []⟩, some ⟨[], "stroke".toList, [], " ".toList, [], []⟩,
      some ⟨[], "a".toList, [], [], "b".toList, []⟩] → d.Valid := by
    intro d hd
    simp only [List.mem_cons, Option.some.injEq, List.not_mem_nil, or_false, reduceCtorEq, false_or] at hd
    rcases hd with rfl | rfl | rfl | rfl <;>
      (refine ⟨by unfold Blank; decide +kernel, by unfold Blank; decide +kernel, by unfold Blank; decide +kernel,
          by unfold Blank; decide +kernel, ⟨⟨?_, ?_⟩, by decide +kernel, by decide +kernel⟩, ⟨⟨?_, ?_⟩, by decide +kernel, by decide +kernel⟩⟩ <;>
        (intro c hc; first | (cases hc; done) | (cases hc; unfold Blank; decide +kernel)))
  obtain ⟨out, h1, -, -, h4⟩ := C74_meaning_partial _ hv
  refine ⟨out, h1, ?_, ?_⟩
  · rw [h4 _ (by decide +kernel)]; decide +kernel
  · rw [h4 _ (by decide +kernel)]; decide +kernel

end Verif.Css

namespace Verif.Svg
open Verif PyFloat PyTrig

/-! ## C85: the font units of the latest context -/

/-- **C85**, the part that holds of a context in use before another one is created: after any history of contexts, a context
created with a font size has that as its `em`, and as its `ex` the x-height given, else the font size. -/
theorem C85_latest_partial (inits : List (Option ℝ × Option ℝ)) (c : Conv ℝ) (fontSize : ℝ) (xHeight : Option ℝ) :
    (convAfter c (inits ++ [(some fontSize, xHeight)])).get LenUnit.em.name = some fontSize ∧
    (convAfter c (inits ++ [(some fontSize, xHeight)])).get LenUnit.ex.name = some (xHeight.getD fontSize) := by
  unfold convAfter
  rw [List.foldl_append]
  exact ⟨rfl, rfl⟩

/-- Non-vacuity: an x-height of 5 and none. -/
example : (convAfter (Conv.default : Conv ℝ) ([] ++ [(some 20, some 5)])).get "ex".toList = some 5 ∧
    (convAfter (Conv.default : Conv ℝ) ([] ++ [(some 20, none)])).get "ex".toList = some 20 :=
  ⟨(C85_latest_partial [] _ 20 (some 5)).2, (C85_latest_partial [] _ 20 none).2⟩

end Verif.Svg
