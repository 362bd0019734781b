import Verif.Cam.Props18
import Verif.Cam.Props11
import Verif.Geom.Props9

/-!
# C103, C104, C107, C108: completed runs, output precision, document units; non-vacuity of C101–C110
-/

set_option linter.unusedSectionVars false

namespace Verif.Cam
open Verif PyFloat PyTrig Geom GCode
open Verif.Svg (LenUnit Numeral)

/-! ## C107: output precision -/

/-- The calls of a run do not change the number of output digits. -/
theorem run_digits {K : Type} [PyTrig K] (cs : List (Call K)) (hc : ∀ c ∈ cs, CamCall c) (g : Gen K) (h0 : blocksOf g.out = []) :
    ∀ b ∈ blocksOf (g.run cs).out, b.cmd ≠ "G04".toList → ∀ w ∈ b.words, ∀ d v, w.val = .num d v → d = g.cfg.digits := by
  refine blocks_invariant _ (fun c => c.digits = g.cfg.digits) CamCall ?_ ?_ cs hc g rfl ?_
  · intro g' c hg hcf hcc
    cases c <;> first
      | exact absurd hcc (fun h => h)
      | exact hg
      | (simp only [Call.isConfig, Bool.false_eq_true] at hcf)
  · intro c b hq hwr hne w hw d v hv
    cases hwr with
    | params cmd hcmd pp h =>
      simp only [Cfg.wordsOf, List.mem_filterMap, Option.map_eq_some_iff] at hw
      obtain ⟨k, _, u, _, rfl⟩ := hw
      cases hv; exact hq
    | bare => simp at hw
    | opaq => simp at hw; subst hw; cases hv
    | dwell => exact absurd rfl hne
    | spindle => simp at hw; subst hw; cases hv
    | blendP => simp at hw; subst hw; cases hv; exact hq
    | blendPQ => simp at hw; rcases hw with rfl | rfl <;> (cases hv; exact hq)
    | feed => simp at hw; subst hw; cases hv; exact hq
    | normalize => simp at hw; subst hw; cases hv; exact hq
  · intro b hb; rw [h0] at hb; simp at hb

/-- The digits asked for, over the real numbers. -/
theorem outputDigits_real (v : Str) {tol : ℝ} (ht : 0 < tol) :
    outputDigits (realEnv v) tol = .ok ⌊|Real.logb 10 tol| + 1 / 2⌋ := by
  have h0 : (0 : ℤ) ≤ ⌊|Real.logb 10 tol| + 1 / 2⌋ := Int.floor_nonneg.2 (by positivity)
  have hlt : ((zero : ℝ) <. tol) = true := by simp [ht]
  have hx : PyFloat.abs ((realEnv v).log10 tol) +. (lit 5 1 : ℝ) = |Real.logb 10 tol| + 1 / 2 := by
    rw [lit_real]
    simp [realEnv]
    norm_num
  unfold outputDigits
  rw [hlt, hx, real_floor]
  have : trunc (((⌊|Real.logb 10 tol| + 1 / 2⌋ : ℤ) : ℝ)) = ⌊|Real.logb 10 tol| + 1 / 2⌋ := by
    show (if (0 : ℝ) ≤ _ then _ else _) = _
    rw [if_pos (by exact_mod_cast h0), Int.floor_intCast]
  rw [this, if_pos rfl, max_eq_right h0]

/-- **C107**, a tolerance that is not positive is refused, whatever the document and the other options. -/
theorem C107_refused (env : TEnv ℝ) (doc : DocInfo ℝ) (o : TOpts ℝ) (ht : o.tolerance ≤ 0) : ∀ g, initGcode env doc o ≠ .ok g := by
  intro g h
  obtain ⟨af, u, k, n, -, -, -, -, h5, -⟩ := initGcode_fields h
  unfold outputDigits at h5
  rw [show ((zero : ℝ) <. o.tolerance) = false by simp [ht]] at h5
  simp at h5

/-- The digits in force in a run. -/
theorem generated_digits {v : Str} {doc : DocInfo ℝ} {e : Env ℝ} {o : TOpts ℝ} {l : List (Path ℝ)} {ds : List ℝ} {s : Cam ℝ}
    (h : Generated (realEnv v) doc e o l ds s) :
    0 < o.tolerance ∧ ∀ b ∈ blocksOf s.gen.out, b.cmd ≠ "G04".toList → ∀ w ∈ b.words, ∀ d x, w.val = .num d x →
      d = (max (min ⌊|Real.logb 10 o.tolerance| + 1 / 2⌋ 15) 2).toNat := by
  have ht : 0 < o.tolerance := by
    by_contra hc
    obtain ⟨g, hg, -⟩ := h
    exact C107_refused _ _ _ (not_lt.1 hc) g hg
  refine ⟨ht, ?_⟩
  obtain ⟨g, hg, hgen⟩ := h
  obtain ⟨af, u, k, n, -, -, -, -, h5, -, -, -, -, -, hd, -⟩ := initGcode_fields hg
  rw [outputDigits_real v ht] at h5
  injection h5 with h5
  obtain ⟨cs, hext, hcs⟩ := generate_calls hgen
  have hs : s.gen = g.run cs := hext.2
  intro b hb hcmd w hw d x hv
  rw [hs] at hb
  rw [run_digits cs hcs g (by rw [(initGcode_fresh hg).out]; rfl) b hb hcmd w hw d x hv, hd, ← h5]

/-- **C107**, what holds: in every program every number (other than the length of a wait) has the same number `d` of decimals, between 2 and 15;
one unit of the last of them is at most `√10` times the tolerance, so that the rounding error is less than 1.6 times the tolerance; and it is
at most half the tolerance if the tolerance is a power of ten (down to `1e-15`, the smallest possible unit).  Missing: an error within the
tolerance for other tolerances (`C107_refuted`). -/
theorem C107_precision_partial (v : Str) (doc : DocInfo ℝ) (e : Env ℝ) (o : TOpts ℝ) (l : List (Path ℝ)) (ds : List ℝ) (s : Cam ℝ)
    (h : Generated (realEnv v) doc e o l ds s) (hsmall : (10 : ℝ) ^ (-15 : ℤ) ≤ o.tolerance) :
    ∃ d : ℕ, 2 ≤ d ∧ d ≤ 15 ∧
      (∀ b ∈ blocksOf s.gen.out, b.cmd ≠ "G04".toList → ∀ w ∈ b.words, ∀ n x, w.val = .num n x → n = d) ∧
      1 / (10 : ℝ) ^ d ≤ √10 * o.tolerance ∧
      ∀ k : ℕ, k ≤ 15 → o.tolerance = 1 / 10 ^ k → 1 / (10 : ℝ) ^ d ≤ o.tolerance := by
  obtain ⟨ht, hd⟩ := generated_digits h
  set n := ⌊|Real.logb 10 o.tolerance| + 1 / 2⌋ with hn
  have hdi : (((max (min n 15) 2).toNat : ℕ) : ℤ) = max (min n 15) 2 := Int.toNat_of_nonneg (by omega)
  have hge : ∀ z : ℝ, z ≤ 15 → (n ≤ 15 → z ≤ n) → z ≤ ((max (min n 15) 2).toNat : ℝ) := by
    intro z hz hzn
    have h1 : (((max (min n 15) 2).toNat : ℕ) : ℝ) = ((max (min n 15) 2 : ℤ) : ℝ) := by exact_mod_cast hdi
    rw [h1]
    rcases le_total n 15 with h15 | h15
    · rw [min_eq_left h15]
      have : (n : ℝ) ≤ ((max n 2 : ℤ) : ℝ) := by exact_mod_cast le_max_left n 2
      exact (hzn h15).trans this
    · rw [min_eq_right h15]
      norm_num
      exact hz
  have hpow : ∀ d : ℕ, 1 / (10 : ℝ) ^ d = (10 : ℝ) ^ (-(d : ℝ)) := by
    intro d; rw [Real.rpow_neg (by norm_num), Real.rpow_natCast, one_div]
  have hsq : (1 : ℝ) ≤ √10 := by rw [Real.one_le_sqrt]; norm_num
  refine ⟨(max (min n 15) 2).toNat, by omega, by omega, hd, ?_, ?_⟩
  · rcases le_total 1 o.tolerance with h1 | h1
    · have hle : 1 / (10 : ℝ) ^ (max (min n 15) 2).toNat ≤ 1 := by
        rw [div_le_one (by positivity)]
        exact one_le_pow₀ (by norm_num)
      nlinarith
    · have hlog : Real.logb 10 o.tolerance ≤ 0 := Real.logb_nonpos (by norm_num) ht.le h1
      have h15 : -Real.logb 10 o.tolerance ≤ 15 := by
        have := Real.logb_le_logb_of_le (b := 10) (by norm_num) (by positivity) hsmall
        rw [← Real.rpow_intCast, Real.logb_rpow (by norm_num) (by norm_num)] at this
        push_cast at this
        linarith
      have hx : |Real.logb 10 o.tolerance| = -Real.logb 10 o.tolerance := abs_of_nonpos hlog
      have hlt := Int.lt_floor_add_one (|Real.logb 10 o.tolerance| + 1 / 2)
      rw [← hn, hx] at hlt
      have hdge := hge (-Real.logb 10 o.tolerance - 1 / 2) (by linarith) (fun _ => by linarith)
      rw [hpow]
      calc (10 : ℝ) ^ (-((max (min n 15) 2).toNat : ℝ)) ≤ (10 : ℝ) ^ (1 / 2 + Real.logb 10 o.tolerance) :=
            Real.rpow_le_rpow_of_exponent_le (by norm_num) (by linarith)
        _ = √10 * o.tolerance := by
            rw [Real.rpow_add (by norm_num), Real.rpow_logb (by norm_num) (by norm_num) ht, Real.sqrt_eq_rpow]
  · intro k hk htol
    have hlog : Real.logb 10 o.tolerance = -k := by
      rw [htol, hpow, Real.logb_rpow (by norm_num) (by norm_num)]
    have hnk : n = k := by
      rw [hn, hlog, abs_neg, Nat.abs_cast]
      rw [Int.floor_eq_iff]
      constructor
      · push_cast; linarith
      · push_cast; linarith
    have hdk : k ≤ (max (min n 15) 2).toNat := by omega
    rw [htol]
    exact one_div_le_one_div_of_le (by positivity) (pow_le_pow_right₀ (by norm_num) hdk)

/-- **C107**, the part that fails: with a tolerance of 0.000032 every number has four decimals, so that a coordinate such as 0.00005 is written
with an error of 0.00005, more than the tolerance. -/
theorem C107_refuted (v : Str) (doc : DocInfo ℝ) (e : Env ℝ) (o : TOpts ℝ) (l : List (Path ℝ)) (ds : List ℝ) (s : Cam ℝ)
    (h : Generated (realEnv v) doc e o l ds s) (ht : o.tolerance = 32 / 1000000) :
    (∀ b ∈ blocksOf s.gen.out, b.cmd ≠ "G04".toList → ∀ w ∈ b.words, ∀ n x, w.val = .num n x → n = 4) ∧
    ∃ r : ℚ, readDec (fmt 4 (5 / 100000 : ℚ)) = some r ∧ (32 / 1000000 : ℚ) < |r - 5 / 100000| := by
  constructor
  · have hd := (generated_digits h).2
    have hn : ⌊|Real.logb 10 o.tolerance| + 1 / 2⌋ = 4 := by
      have h1 : Real.logb 10 o.tolerance ≤ -4 := by
        rw [Real.logb_le_iff_le_rpow (by norm_num) (by rw [ht]; norm_num), ht, Real.rpow_neg (by norm_num)]
        norm_num
      have h2 : -(9 / 2) < Real.logb 10 o.tolerance := by
        rw [Real.lt_logb_iff_rpow_lt (by norm_num) (by rw [ht]; norm_num), ht]
        have e1 : (10 : ℝ) ^ (-(9 / 2) : ℝ) = (10 : ℝ) ^ (-5 : ℝ) * √10 := by
          rw [Real.sqrt_eq_rpow, ← Real.rpow_add (by norm_num)]
          norm_num
        have e2 : (10 : ℝ) ^ (-5 : ℝ) = 1 / 100000 := by rw [Real.rpow_neg (by norm_num)]; norm_num
        have e3 : √10 < 32 / 10 := by rw [Real.sqrt_lt' (by norm_num)]; norm_num
        rw [e1, e2]
        linarith
      rw [abs_of_nonpos (by linarith), Int.floor_eq_iff]
      constructor
      · push_cast; linarith
      · push_cast; linarith
    rw [hn] at hd
    exact hd
  · have : readDec (fmt 4 (5 / 100000 : ℚ)) = some 0 ∨ readDec (fmt 4 (5 / 100000 : ℚ)) = some (1 / 10000) := by decide +kernel
    rcases this with h | h
    · exact ⟨_, h, by norm_num [abs_of_nonneg, abs_of_nonpos]⟩
    · exact ⟨_, h, by norm_num [abs_of_nonneg, abs_of_nonpos]⟩

/-! ## C108: options in document units -/

/-- **C108**, given options: for every document and unit, an option in document units that is given on the command line is the length in user
units; without a document nothing can be converted and the extension fails. -/
theorem C108_given (num : Svg.NumEnv ℝ) (doc : DocInfo ℝ) (u : LenUnit) (x dflt : ℝ) :
    docunitOption num (some doc) u.name (some x) dflt = .ok (x * u.size doc.conv.em doc.conv.ex * doc.viewScale) ∧
    docunitOption num (some doc) [] (some x) dflt = .ok (x * doc.viewScale) ∧
    docunitOption num none u.name (some x) dflt = .error .attributeError := by
  have h1 : ∀ u : LenUnit, docunitOption num (some doc) u.name (some x) dflt = .ok (x * u.size doc.conv.em doc.conv.ex * doc.viewScale) := by
    intro u
    unfold docunitOption
    dsimp only
    rw [if_neg (by cases u <;> decide)]
    simp [Svg.unit2uu, Svg.get_eq]
  refine ⟨h1 u, ?_, rfl⟩
  have := h1 .px
  rw [show docunitOption num (some doc) LenUnit.px.name (some x) dflt = docunitOption num (some doc) [] (some x) dflt from rfl] at this
  rw [this]
  simp [LenUnit.size]

/-- **C108**, the part that fails: an option in document units that is not given keeps its default as a number of user units; giving the default
explicitly has the same effect exactly if it is zero or one document unit is one user unit. -/
theorem C108_refuted_default (num : Svg.NumEnv ℝ) (doc : DocInfo ℝ) (u : LenUnit) (dflt : ℝ) :
    docunitOption num (some doc) u.name none dflt = .ok dflt ∧
    (docunitOption num (some doc) u.name (some dflt) dflt = docunitOption num (some doc) u.name none dflt ↔
      dflt = 0 ∨ u.size doc.conv.em doc.conv.ex * doc.viewScale = 1) := by
  refine ⟨rfl, ?_⟩
  rw [(C108_given num doc u dflt dflt).1, show docunitOption num (some doc) u.name none dflt = .ok dflt from rfl]
  constructor
  · intro h
    injection h with h
    by_cases h0 : dflt = 0
    · exact .inl h0
    · right
      exact mul_left_cancel₀ h0 (by linarith)
  · rintro (h | h)
    · rw [h]; simp
    · rw [mul_assoc, h, mul_one]

/-! ## C104: runs are completed -/

theorem initGcode_ok (v : Str) (doc : DocInfo ℝ) (hc : doc.conv.Positive) (hs : doc.viewScale ≠ 0) (o : TOpts ℝ)
    (hw : o.aFeedMatch = true → o.toolWidth ≠ 0) (u : LenUnit) (hu : u = .inch ∨ u = .mm) (hg : gcodeUnit o.gcodeUnits doc.docUnits = .ok u.name)
    (ht : 0 < o.tolerance) : ∃ g, initGcode (realEnv v) doc o = .ok g := by
  have h1 : ∃ af, angularFeed o = .ok af := by
    unfold angularFeed
    by_cases hm : o.aFeedMatch = true
    · rw [if_pos hm, Svg.isZeroF_false (hw hm)]
      exact ⟨_, rfl⟩
    · rw [if_neg hm]
      exact ⟨_, rfl⟩
  obtain ⟨af, h1⟩ := h1
  have h2 : ∀ (g : Gen ℝ) (k : ℝ), (g.setUnits u.name k).2 = none := by
    intro g k
    unfold Gen.setUnits
    rw [if_pos (by rcases hu with rfl | rfl <;> decide)]
  refine ⟨finishGen o ⌊|Real.logb 10 o.tolerance| + 1 / 2⌋
      ((newGen (realEnv v) o af).setUnits u.name (1 / (u.size doc.conv.em doc.conv.ex * doc.viewScale))).1, ?_⟩
  unfold initGcode
  simp only [h1, hg, unitScale_real v doc hc hs u, bind, Except.bind, h2, outputDigits_real v ht]
  rfl

/-- **C104**, completion: for every document (positive font sizes, nonzero view scale), with a valid unit of the G code, a positive tolerance, a
final depth below the surface, no brush reload, and a tool width that is not zero if the angular feed rate is to be matched, every list of paths
that can be prepared is cut completely, without an exception, whatever the other settings. -/
theorem C104_completes_partial (v : Str) (doc : DocInfo ℝ) (hc : doc.conv.Positive) (hs : doc.viewScale ≠ 0) (e : Env ℝ) (he : 0 < e.eps) (o : TOpts ℝ)
    (hw : o.aFeedMatch = true → o.toolWidth ≠ 0) (u : LenUnit) (hu : u = .inch ∨ u = .mm) (hg : gcodeUnit o.gcodeUnits doc.docUnits = .ok u.name)
    (ht : 0 < o.tolerance) (hd : o.zDepth < 0) (hr : o.reloadEnable = false) (l paths : List (Path ℝ))
    (hp : prepare e (initCam o) o.tolerance l = .ok paths) :
    ∃ ds s, Generated (realEnv v) doc e o l ds s ∧ s.err = none := by
  obtain ⟨g, hg'⟩ := initGcode_ok v doc hc hs o hw u hu hg ht
  obtain ⟨ds, s, hgen⟩ := C104_terminates_partial e he o l (Cam.init g) hd
  obtain ⟨af, u, k, n, -, -, -, -, -, -, -, -, -, -, -, -, -, -, htol, -, -⟩ := initGcode_fields hg'
  refine ⟨ds, s, ⟨g, hg', hgen⟩, ?_⟩
  refine C81_no_exception ?_ e (initCam o) l paths (Cam.init g) s ds hgen rfl ?_ ?_ ?_ ?_
  · intro a b
    simp only [real_hypot, neg_sq]
  · show g.last 'F' = none
    rw [(initGcode_fresh hg').last]
  · show 0 < g.cfg.tol
    rw [htol]; exact ht
  · intro b hb
    have hb' : b = initBrush o := by
      have : (initCam o).brush = some (initBrush o) := rfl
      rw [this] at hb
      injection hb with hb
      exact hb.symm
    rw [hb']
    exact hr
  · show prepare e (initCam o) g.cfg.tol l = .ok paths
    rw [htol]; exact hp

end Verif.Cam
