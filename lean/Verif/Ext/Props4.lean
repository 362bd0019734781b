import Verif.Ext.Copies
import Verif.Svg.Props21
import Verif.Svg.Props8

/-!
# C133, C134: written transforms, and the copies of `repeater.py`
-/

set_option linter.unusedSectionVars false

namespace Verif.Ext
open Verif PyFloat PyTrig Geom Css Svg

/-! ## Specification -/

/-- Specification: two places that differ by at most `r` in each coordinate. -/
def Within (r : ℝ) (p q : P ℝ) : Prop := |p.x - q.x| ≤ r ∧ |p.y - q.y| ≤ r

/-- Specification: what six decimals can move a point by: half a millionth, and half a millionth of its coordinates. -/
noncomputable def slack (p : P ℝ) : ℝ := (1 + |p.x| + |p.y|) / 2 / 10 ^ 6

/-- Specification: a number with at most six decimals. -/
def SixDecimals (v : ℝ) : Prop := ∃ k : ℤ, v = k / 10 ^ 6

/-- Specification: the distance `n` times the interval in the direction of the angle, seen on the screen (`y` grows downwards). -/
noncomputable def shift (interval angle : ℝ) (n : ℕ) : P ℝ := ⟨n * interval * Real.cos angle, -(n * interval * Real.sin angle)⟩

/-- Specification: a point moved. -/
noncomputable def moved (p v : P ℝ) : P ℝ := ⟨p.x + v.x, p.y + v.y⟩

/-- Specification: a transform without scaling, rotation and skew: all points move the same way. -/
def Shifts (m : Mat ℝ) : Prop := ∃ v, ∀ p, m.apply p = moved p v

/-- Specification: the element with another transform: the name, the other attributes and the content are the same. -/
def SameBut (e e' : XNode) : Prop :=
  ∃ ns t a a' k, e = .elem ns t a k ∧ e' = .elem ns t a' k ∧ ∀ n : Str, n ≠ "transform".toList → a'.lookup n = a.lookup n

/-- Specification: `e'` is a copy of `e` that is moved by `v` in the coordinates of what `e` is in. -/
def CopyMoved (v : P ℝ) (e e' : XNode) : Prop :=
  SameBut e e' ∧ ∃ own m, parseTransform exactR (e.get "transform".toList) = .ok own ∧ parseTransform exactR (e'.get "transform".toList) = .ok m ∧
    ∀ p, Within (slack p) (m.apply p) (moved (own.apply p) v)

/-- Specification: `e'` is a copy of `e` that is moved by `v` in its own coordinates. -/
def CopyMovedInside (v : P ℝ) (e e' : XNode) : Prop :=
  SameBut e e' ∧ ∃ own m, parseTransform exactR (e.get "transform".toList) = .ok own ∧ parseTransform exactR (e'.get "transform".toList) = .ok m ∧
    ∀ p, Within (slack p) (m.apply p) (own.apply (moved p v))

/-- Specification: `cs` are the copies of `es`, one round after the other, the `n`-th round (from `n` on) related by `R n`. -/
def Rounds (R : ℕ → XNode → XNode → Prop) (es : List XNode) : ℕ → ℕ → List XNode → Prop
  | 0, _, cs => cs = []
  | k + 1, n, cs => ∃ c r, cs = c ++ r ∧ List.Forall₂ (R n) es c ∧ Rounds R es k (n + 1) r

/-! ## Numbers -/

/-- The numeral that `%.6f` prints. -/
noncomputable def numR (v : ℝ) : Numeral :=
  ⟨if v < 0 then some true else none, natDigits (roundNat (|v| * 10 ^ 6) / 10 ^ 6), some (padZero 6 (natDigits (roundNat (|v| * 10 ^ 6) % 10 ^ 6))), none⟩

theorem numR_text (v : ℝ) : (fmt 6 v : Str) = (numR v).text := by
  show fmtReal 6 v = _
  rw [fmtReal_eq, if_neg (show ¬ (6 : ℕ) = 0 by norm_num)]
  unfold numR Numeral.text
  dsimp only
  by_cases hq : v < 0 <;> simp [hq, signText, fracText, expText]

theorem numR_valid (v : ℝ) : (numR v).Valid := by
  refine ⟨all_isDig (GCode.natDigits_digit _), ?_, ?_, ?_⟩
  · intro ds h
    injection h with h
    rw [← h]
    exact all_isDig (GCode.padZero_digit _ _)
  · intro h
    exact GCode.natDigits_ne _ (List.append_eq_nil_iff.1 h).1
  · intro u s ds h; cases h

theorem numR_value (v : ℝ) : (numR v).value exactR = printedR 6 v := by
  set m := roundNat (|v| * 10 ^ 6) with hm
  have hneg : (numR v).negative = decide (v < 0) := by
    unfold Numeral.negative numR
    by_cases hq : v < 0 <;> simp [hq]
  have key : ((natOf ((numR v).ip ++ (numR v).frac.getD []) : ℕ) : ℝ) * (10 : ℝ) ^ (numR v).exponent = m / 10 ^ 6 := by
    unfold Numeral.exponent numR
    dsimp only
    rw [← hm]
    have hlen := GCode.padZero_length 6 (m % 10 ^ 6) (by norm_num) (Nat.mod_lt _ (by positivity))
    simp only [expValue, zero_sub, Option.getD_some, hlen]
    rw [natOf_append, natOf_eq, natOf_eq, GCode.digitsVal_natDigits, GCode.digitsVal_pad, hlen, Nat.div_add_mod']
    rw [zpow_neg, ← div_eq_mul_inv]
    norm_num
  unfold Numeral.value
  rw [hneg]
  unfold printedR
  rw [← hm]
  show (if decide (v < 0) = true then -((natOf _ : ℕ) : ℝ) else ((natOf _ : ℕ) : ℝ)) * (10 : ℝ) ^ _ = _
  by_cases hq : v < 0
  · simp only [hq, decide_true, if_true]
    rw [neg_mul, key, neg_div]
  · simp only [hq, decide_false, if_false, Bool.false_eq_true]
    exact key

/-! ## C133 -/

/-- The numbers of a written matrix. -/
noncomputable def matNums (m : Mat ℝ) : List Numeral := [numR m.a, numR m.d, numR m.b, numR m.e, numR m.c, numR m.f]

theorem transformAttr_text (m : Mat ℝ) : ListText (transformAttr m) [⟨"matrix", matNums m⟩] := by
  have e : transformAttr m = "matrix".toList ++ ([] ++ '(' :: (((numR m.a).text ++ ',' :: ((numR m.d).text ++ ',' :: ((numR m.b).text ++ ',' :: ((numR m.e).text ++
      ',' :: ((numR m.c).text ++ ',' :: (numR m.f).text))))) ++ ')' :: [])) := by
    unfold transformAttr
    simp only [numR_text]
    have : ("matrix(".toList : Str) = "matrix".toList ++ ['('] := by decide
    rw [this]
    simp
  rw [e]
  have v := numR_valid
  have c : Svg.Sep ',' := by simp [Svg.Sep]
  exact .item ⟨"matrix", _⟩ [] _ [] _ (by simp [OkTransform, matNums]) (by simp)
    (.num _ ',' _ _ (v _) c (.num _ ',' _ _ (v _) c (.num _ ',' _ _ (v _) c (.num _ ',' _ _ (v _) c (.num _ ',' _ _ (v _) c (.last _ (v _))))))) .nil

/-- The matrix with its numbers rounded. -/
noncomputable def printedM (m : Mat ℝ) : Mat ℝ := ⟨printedR 6 m.a, printedR 6 m.b, printedR 6 m.c, printedR 6 m.d, printedR 6 m.e, printedR 6 m.f⟩

theorem written_matrix (m : Mat ℝ) : ∃ m', parseTransform exactR (some (transformAttr m)) = .ok m' ∧ ∀ p, m'.apply p = (printedM m).apply p := by
  obtain ⟨m', h1, h2⟩ := parseTransform_text exactR (transformAttr_text m)
  refine ⟨m', h1, fun p => ?_⟩
  rw [h2]
  unfold applyList matNums
  simp only [List.foldr, List.map, numR_value]
  apply P.ext_real <;> simp [svgApply, Mat.apply, printedM]

theorem printedM_within (m : Mat ℝ) (p : P ℝ) : Within (slack p) ((printedM m).apply p) (m.apply p) := by
  have n := printedR_near 6
  have hx : ∀ a b c : ℝ, |printedR 6 a * p.x + printedR 6 b * p.y + printedR 6 c - (a * p.x + b * p.y + c)| ≤ slack p := by
    intro a b c
    have e : printedR 6 a * p.x + printedR 6 b * p.y + printedR 6 c - (a * p.x + b * p.y + c) =
        (printedR 6 a - a) * p.x + (printedR 6 b - b) * p.y + (printedR 6 c - c) := by ring
    rw [e]
    refine (abs_add_three _ _ _).trans ?_
    rw [abs_mul, abs_mul]
    have h1 := mul_le_mul_of_nonneg_right (n a) (abs_nonneg p.x)
    have h2 := mul_le_mul_of_nonneg_right (n b) (abs_nonneg p.y)
    have h3 := n c
    unfold slack
    have : (1 + |p.x| + |p.y|) / 2 / 10 ^ 6 = 1 / 2 / 10 ^ 6 * |p.x| + 1 / 2 / 10 ^ 6 * |p.y| + (1 : ℝ) / 2 / 10 ^ 6 := by ring
    rw [this]
    linarith
  exact ⟨by simpa [Mat.apply, printedM] using hx m.a m.b m.c, by simpa [Mat.apply, printedM] using hx m.d m.e m.f⟩

/-- **C133**: the text written for any matrix is a transform that reads back, and the transform read moves every point to where the matrix moves it, to
half a millionth of the size of the coordinates; if the numbers of the matrix have six decimals, exactly there. -/
theorem C133_transform_text (m : Mat ℝ) : ∃ m', parseTransform exactR (some (transformAttr m)) = .ok m' ∧
    (∀ p, Within (slack p) (m'.apply p) (m.apply p)) ∧
    (SixDecimals m.a → SixDecimals m.b → SixDecimals m.c → SixDecimals m.d → SixDecimals m.e → SixDecimals m.f → ∀ p, m'.apply p = m.apply p) := by
  obtain ⟨m', h1, h2⟩ := written_matrix m
  refine ⟨m', h1, fun p => ?_, ?_⟩
  · rw [h2]; exact printedM_within m p
  · rintro ⟨a, ha⟩ ⟨b, hb⟩ ⟨c, hc⟩ ⟨d, hd⟩ ⟨e, he⟩ ⟨f, hf⟩ p
    rw [h2]
    have : printedM m = m := by
      unfold printedM
      ext
      · show printedR 6 m.a = m.a; rw [ha, printedR_exact]
      · show printedR 6 m.b = m.b; rw [hb, printedR_exact]
      · show printedR 6 m.c = m.c; rw [hc, printedR_exact]
      · show printedR 6 m.d = m.d; rw [hd, printedR_exact]
      · show printedR 6 m.e = m.e; rw [he, printedR_exact]
      · show printedR 6 m.f = m.f; rw [hf, printedR_exact]
    rw [this]

/-- Non-vacuity: what is written. -/
example : String.ofList (transformAttr (⟨1, 2, 3/2, 0, -1, 1/3⟩ : Mat ℚ)) = "matrix(1.000000,0.000000,2.000000,-1.000000,1.500000,0.333333)" := by decide +kernel

/-- **C133** (identity): no transform is taken for the identity but the identity. -/
theorem C133_identity (m : Mat ℝ) : isIdentity m = true ↔ ∀ p, m.apply p = p := by
  have e : isIdentity m = true ↔ m = Mat.ident := by
    unfold isIdentity
    simp only [real_beq, Bool.and_eq_true, decide_eq_true_eq]
    constructor
    · rintro ⟨⟨⟨⟨⟨h1, h2⟩, h3⟩, h4⟩, h5⟩, h6⟩
      ext <;> simp_all [Mat.ident]
    · rintro rfl
      simp [Mat.ident]
  rw [e]
  constructor
  · rintro rfl p
    exact (C41_compose Mat.ident Mat.ident Mat.ident p).2.2.2.2
  · intro h
    have h0 := h ⟨0, 0⟩
    have h1 := h ⟨1, 0⟩
    have h2 := h ⟨0, 1⟩
    simp only [Mat.apply, P.mk.injEq, real_add, real_mul, mul_zero, mul_one, zero_add, add_zero] at h0 h1 h2
    obtain ⟨c0, f0⟩ := h0
    rw [c0, f0] at h1 h2
    ext <;> simp_all [Mat.ident]

/-! ## C134 -/

theorem setAttr_self (name value : Str) (a : List (Str × Str)) : (setAttr name value a).lookup name = some value := by
  induction a with
  | nil => simp [setAttr, List.lookup]
  | cons x a ih =>
    obtain ⟨n, v⟩ := x
    unfold setAttr
    by_cases h : n = name
    · rw [if_pos h, h]; simp [List.lookup]
    · rw [if_neg h, List.lookup_cons, ih]
      have : (name == n) = false := by simpa using fun g => h g.symm
      rw [this]

theorem setAttr_other (name value : Str) (a : List (Str × Str)) {n : Str} (hn : n ≠ name) : (setAttr name value a).lookup n = a.lookup n := by
  have hb : (n == name) = false := by simpa using hn
  induction a with
  | nil => simp [setAttr, List.lookup, hb]
  | cons x a ih =>
    obtain ⟨m, v⟩ := x
    unfold setAttr
    by_cases h : m = name
    · rw [if_pos h, List.lookup_cons, List.lookup_cons, h, hb]
    · rw [if_neg h, List.lookup_cons, List.lookup_cons, ih]

theorem shift_eq (interval angle : ℝ) (n : ℕ) : (P.fromPolar (interval *. ofInt ((n : ℤ) + 1)) (PyFloat.neg angle) : P ℝ) = shift interval angle (n + 1) := by
  unfold P.fromPolar shift
  apply P.ext_real
  · simp only [real_mul, real_ofInt, PyTrig.cos, real_neg, Int.cast_add, Int.cast_natCast, Int.cast_one, Nat.cast_add, Nat.cast_one]
    show _ * Real.cos (-angle) = _
    rw [Real.cos_neg]; ring
  · simp only [real_mul, real_ofInt, PyTrig.sin, real_neg, Int.cast_add, Int.cast_natCast, Int.cast_one, Nat.cast_add, Nat.cast_one]
    show _ * Real.sin (-angle) = _
    rw [Real.sin_neg]; ring

theorem apply_shift (m : Mat ℝ) (v p : P ℝ) : (m.compose (Mat.translate v.x v.y)).apply p = m.apply (moved p v) := by
  rw [(C41_compose m (Mat.translate v.x v.y) m p).1]
  congr 1
  apply P.ext_real <;> simp [Mat.translate, Mat.apply, moved]

theorem copyOf_spec (interval angle : ℝ) (n : ℕ) {ns : Ns} {t : Str} {a : List (Str × Str)} {k : List XNode} {own : Mat ℝ}
    (h : parseTransform exactR (a.lookup "transform".toList) = .ok own) :
    ∃ e', copyOf exactR interval angle n (.elem ns t a k) = .ok e' ∧ CopyMovedInside (shift interval angle (n + 1)) (.elem ns t a k) e' := by
  obtain ⟨m', h1, h2, -⟩ := C133_transform_text (own.compose (Mat.translate (shift interval angle (n + 1)).x (shift interval angle (n + 1)).y))
  refine ⟨.elem ns t (setAttr "transform".toList (transformAttr (own.compose (Mat.translate (shift interval angle (n + 1)).x (shift interval angle (n + 1)).y))) a) k, ?_, ?_⟩
  · unfold copyOf
    show (parseTransform exactR (a.lookup "transform".toList) >>= _) = _
    rw [h, shift_eq]
    rfl
  · refine ⟨⟨ns, t, a, _, k, rfl, rfl, fun n hn => setAttr_other _ _ _ hn⟩, own, m', h, ?_, ?_⟩
    · show parseTransform exactR (List.lookup _ _) = _
      rw [setAttr_self, h1]
    · intro p
      have := h2 p
      rwa [apply_shift] at this

/-- Elements that can be copied: elements (not comments) with a transform that can be read. -/
def Copyable (e : XNode) : Prop := e ≠ .comment ∧ ∃ own, parseTransform exactR (e.get "transform".toList) = .ok own

theorem copyRound_spec (interval angle : ℝ) (n : ℕ) (es : List XNode) (h : ∀ e ∈ es, Copyable e) :
    ∃ cs, copyRound exactR interval angle n es = .ok cs ∧ List.Forall₂ (fun e e' => CopyMovedInside (shift interval angle (n + 1)) e e') es cs := by
  induction es with
  | nil => exact ⟨[], rfl, .nil⟩
  | cons e es ih =>
    obtain ⟨cs, h1, h2⟩ := ih fun x hx => h x (by simp [hx])
    obtain ⟨hc, own, ho⟩ := h e (by simp)
    cases e with
    | comment => exact absurd rfl hc
    | elem ns t a k =>
      obtain ⟨e', h3, h4⟩ := copyOf_spec interval angle n (ns := ns) (t := t) (k := k) ho
      refine ⟨e' :: cs, ?_, .cons h4 h2⟩
      rw [copyRound, h3, h1]
      rfl

theorem copyRounds_spec (interval angle : ℝ) (es : List XNode) (h : ∀ e ∈ es, Copyable e) (k : ℕ) : ∀ n, ∃ cs, copyRounds exactR interval angle es k n = .ok cs ∧
    Rounds (fun n e e' => CopyMovedInside (shift interval angle (n + 1)) e e') es k n cs := by
  induction k with
  | zero => exact fun n => ⟨[], rfl, rfl⟩
  | succ k ih =>
    intro n
    obtain ⟨r, h1, h2⟩ := ih (n + 1)
    obtain ⟨c, h3, h4⟩ := copyRound_spec interval angle n es h
    refine ⟨c ++ r, ?_, c, r, rfl, h4, h2⟩
    rw [copyRounds, h3, h1]
    rfl

/-- **C134** (every transform): for a selection whose transforms can be read, the extension adds, round after round, one copy of every selected element: the same element
moved by once, twice, … the interval in the direction of the angle, in its own coordinates. -/
theorem C134_copies (copies : ℤ) (interval angle : ℝ) (es : List XNode) (h : ∀ e ∈ es, Copyable e) :
    ∃ cs, repeated exactR copies interval angle es = .ok cs ∧
      Rounds (fun n e e' => CopyMovedInside (shift interval angle (n + 1)) e e') es copies.toNat 0 cs :=
  copyRounds_spec interval angle es h copies.toNat 0

theorem inside_out {v : P ℝ} {e e' : XNode} (h : CopyMovedInside v e e') (hs : ∀ own, parseTransform exactR (e.get "transform".toList) = .ok own → Shifts own) :
    CopyMoved v e e' := by
  obtain ⟨h1, own, m, h2, h3, h4⟩ := h
  refine ⟨h1, own, m, h2, h3, fun p => ?_⟩
  obtain ⟨w, hw⟩ := hs own h2
  have := h4 p
  rw [hw] at this ⊢
  have e : moved (moved p v) w = moved (moved p w) v := by
    unfold moved; apply P.ext_real <;> ring
  rwa [e] at this

theorem rounds_mono {R S : ℕ → XNode → XNode → Prop} {es : List XNode} (h : ∀ n, ∀ e ∈ es, ∀ e', R n e e' → S n e e') (k : ℕ) : ∀ n cs, Rounds R es k n cs → Rounds S es k n cs := by
  induction k with
  | zero => exact fun _ _ h => h
  | succ k ih =>
    rintro n cs ⟨c, r, rfl, h1, h2⟩
    refine ⟨c, r, rfl, ?_, ih _ _ h2⟩
    clear h2 ih
    induction h1 with
    | nil => exact .nil
    | cons ha _ ih => exact .cons (h n _ (by simp) _ ha) (ih fun n e he => h n e (by simp [he]))

/-- **C134**, the part that holds: if the selected elements are not scaled, rotated or skewed by their own transforms, the copies are moved by multiples of the interval in the
direction of the angle.  Missing: other transforms. -/
theorem C134_moved_partial (copies : ℤ) (interval angle : ℝ) (es : List XNode) (h : ∀ e ∈ es, Copyable e)
    (hs : ∀ e ∈ es, ∀ own, parseTransform exactR (e.get "transform".toList) = .ok own → Shifts own) :
    ∃ cs, repeated exactR copies interval angle es = .ok cs ∧ Rounds (fun n e e' => CopyMoved (shift interval angle (n + 1)) e e') es copies.toNat 0 cs := by
  obtain ⟨cs, h1, h2⟩ := C134_copies copies interval angle es h
  exact ⟨cs, h1, rounds_mono (fun n e he e' hr => inside_out hr (hs e he)) _ _ _ h2⟩

/-- Non-vacuity: an element without a transform and one with a translation. -/
example : Copyable (.elem .svg "path".toList [("d".toList, "M 0 0 L 1 1".toList)] []) ∧
    ∀ own, parseTransform exactR ((XNode.elem .svg "path".toList [("d".toList, "M 0 0 L 1 1".toList)] []).get "transform".toList) = .ok own → Shifts own := by
  have e : parseTransform exactR ((XNode.elem .svg "path".toList [("d".toList, "M 0 0 L 1 1".toList)] []).get "transform".toList) = .ok (Mat.ident : Mat ℝ) := rfl
  refine ⟨⟨by simp, _, e⟩, ?_⟩
  intro own h
  rw [e] at h
  injection h with h
  subst h
  exact ⟨⟨0, 0⟩, fun p => by rw [(C41_compose Mat.ident Mat.ident Mat.ident p).2.2.2.2]; apply P.ext_real <;> simp [moved]⟩

/-- The part of **C134** that fails: the copy of an element that is scaled by two is moved by twice the distance asked for (to the tolerance of the text). -/
theorem C134_refuted_scaled (interval angle : ℝ) : ∃ e e', Copyable e ∧ repeated exactR 1 interval angle [e] = .ok [e'] ∧
    ∃ own m, parseTransform exactR (e.get "transform".toList) = .ok own ∧ parseTransform exactR (e'.get "transform".toList) = .ok m ∧
    ∀ p, Within (slack p) (m.apply p) (moved (own.apply p) (shift interval angle 2)) := by
  have v2 : Numeral.Valid ⟨none, ['2'], none, none⟩ := ⟨rfl, by simp, by simp, by simp⟩
  have ht : ListText "scale(2)".toList [⟨"scale", [⟨none, ['2'], none, none⟩]⟩] :=
    .item ⟨"scale", _⟩ [] "2".toList [] _ (by simp [OkTransform]) (by simp) (.last _ v2) .nil
  obtain ⟨own, ho, ha⟩ := parseTransform_text exactR ht
  have hC : Copyable (.elem .svg "path".toList [("transform".toList, "scale(2)".toList)] []) := ⟨by simp, own, ho⟩
  obtain ⟨cs, h1, c, r, rfl, h2, h3⟩ := C134_copies 1 interval angle [.elem .svg "path".toList [("transform".toList, "scale(2)".toList)] []] (by simpa using hC)
  have h3 : r = [] := h3
  subst h3
  cases h2 with
  | cons h4 h5 =>
    cases h5
    rename_i e'
    refine ⟨_, e', hC, h1, ?_⟩
    obtain ⟨-, own', m, h6, h7, h8⟩ := h4
    have : own' = own := by
      have := h6.symm.trans ho
      injection this
    subst this
    refine ⟨own', m, h6, h7, fun p => ?_⟩
    have := h8 p
    rw [ha] at this ⊢
    have hval : Numeral.value exactR ⟨none, ['2'], none, none⟩ = 2 := by
      unfold Numeral.value Numeral.negative Numeral.exponent exactR
      norm_num [expValue, natOf]
      show (((50 - 48 : ℕ)) : ℝ) = 2
      norm_num
    have e : applyList exactR [⟨"scale", [⟨none, ['2'], none, none⟩]⟩] (moved p (shift interval angle (0 + 1))) =
        moved (applyList exactR [⟨"scale", [⟨none, ['2'], none, none⟩]⟩] p) (shift interval angle 2) := by
      unfold applyList
      simp only [List.foldr, List.map, hval]
      unfold moved shift
      apply P.ext_real <;> simp [svgApply] <;> ring
    rwa [e] at this

theorem live_runs (interval angle : ℝ) (n : ℕ) (fuel : ℕ) : ∀ (i : ℕ) (kids : List XNode), i < kids.length → (∀ e ∈ kids, Copyable e) →
    liveRound exactR interval angle n fuel i kids = none := by
  induction fuel with
  | zero => exact fun _ _ _ _ => rfl
  | succ fuel ih =>
    intro i kids hi hk
    rw [liveRound, List.getElem?_eq_getElem hi]
    have hm := hk _ (List.getElem_mem hi)
    obtain ⟨hc, own, ho⟩ := hm
    dsimp only
    cases hx : kids[i] with
    | comment => exact absurd hx hc
    | elem ns t a k =>
      rw [hx] at ho
      obtain ⟨e', h3, h4, own', m, -, h5, -⟩ := copyOf_spec interval angle n (ns := ns) (t := t) (k := k) ho
      rw [h3]
      dsimp only
      apply ih
      · simp; omega
      · intro e he
        rcases List.mem_append.1 he with he | he
        · exact hk e he
        · rw [List.mem_singleton] at he
          subst he
          obtain ⟨_, _, _, _, _, _, rfl, _⟩ := h4
          exact ⟨by simp, m, h5⟩

/-- The other part of **C134** that fails: if nothing is selected and the copies go into the document itself, the extension never ends (as long as every element of the
document can be copied): it copies its own copies. -/
theorem C134_refuted_unselected (interval angle : ℝ) (kids : List XNode) (h0 : kids ≠ []) (hk : ∀ e ∈ kids, Copyable e) (fuel : ℕ) :
    liveRound exactR interval angle 0 fuel 0 kids = none :=
  live_runs interval angle 0 fuel 0 kids (List.length_pos_iff.2 h0) hk

end Verif.Ext
