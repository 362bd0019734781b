import Verif.Ext.Props22
import Verif.Geom.Props9

/-!
# C161: the styles of the line grids and of the preview
-/

set_option linter.unusedSectionVars false
set_option maxRecDepth 4000

namespace Verif.Ext
open Verif PyFloat PyTrig Svg Css

/-! ## Specification -/

/-- Specification: how lines are drawn. -/
structure Pen where
  stroke : Str
  width : Str
  opacity : Str

/-- Specification: the style of a line. -/
def Pen.css (p : Pen) : Str :=
  "fill:none;stroke-linejoin:round;stroke:".toList ++ (p.stroke ++ (";stroke-width:".toList ++ (p.width ++ (";stroke-opacity:".toList ++ (p.opacity ++ ";".toList)))))

/-- Specification: one point, in user units. -/
noncomputable def onePoint (env : NumEnv ℝ) (scale : ℝ) : ℝ := env.ofDec false 1 0 * 1.25 * scale

/-- Specification: the pen that is asked for: the colour, the width (one point instead of 0), the opacity (a tenth instead of 0). -/
noncomputable def asked (env : NumEnv ℝ) (scale : ℝ) (fmt : ℝ → Str) (colour : Str) (width opacity : ℝ) : Pen :=
  ⟨colour, fmt (if width = 0 then onePoint env scale else width), fmt (if opacity = 0 then 1 / 10 else opacity)⟩

/-- Specification: the pen without settings. -/
noncomputable def plainPen (env : NumEnv ℝ) (scale : ℝ) (fmt : ℝ → Str) : Pen := ⟨"#c0c0c0".toList, fmt (onePoint env scale), ['1']⟩

/-- Specification: the styles of the horizontal and of the vertical lines. -/
def gridStyles (h v : Pen) : List (Str × Str) := [("h_line".toList, h.css), ("v_line".toList, v.css)]

/-! ## Line grids -/

theorem isZeroF_zero : isZeroF (0 : ℝ) = true := by
  unfold isZeroF
  simp

theorem onePoint_unit (env : NumEnv ℝ) {c : Conv ℝ} (hc : c.Positive) (scale : ℝ) : unit2uu env c scale (.text "1pt".toList) "px".toList = .ok (onePoint env scale) := by
  have hv : (lengthOf "1".toList none .pt).Valid := by
    refine ⟨⟨by decide, by simp [lengthOf], by simp [lengthOf], by simp [lengthOf]⟩, by simp [lengthOf]⟩
  have h := (C75_to_user_units env hc scale hv .px 0).1
  have e : (lengthOf "1".toList none .pt).text = "1pt".toList := by decide
  rw [e] at h
  rw [show "px".toList = LenUnit.px.name from rfl, h]
  rfl

theorem orPoint_spec (env : NumEnv ℝ) {c : Conv ℝ} (hc : c.Positive) (scale : ℝ) (w : ℝ) :
    orPoint (fun t => unit2uu env c scale (.text t) "px".toList) w = .ok (if w = 0 then onePoint env scale else w) := by
  unfold orPoint
  by_cases h : w = 0
  · rw [h, isZeroF_zero, if_pos rfl, if_pos rfl]; exact onePoint_unit env hc scale
  · rw [isZeroF_false h, if_neg h]; rfl

theorem orTenth (x : ℝ) : (if isZeroF x then (lit 1 1 : ℝ) else x) = if x = 0 then 1 / 10 else x := by
  by_cases h : x = 0
  · rw [h, isZeroF_zero, if_pos rfl, if_pos rfl, Geom.lit_real]; norm_num
  · rw [isZeroF_false h, if_neg h]; rfl

/-- The options as settings. -/
def lineSettings (o : LineCss ℝ) (k : Str) : Option Setting :=
  if k = "h_stroke".toList then some (.word o.hStroke)
  else if k = "h_stroke_width".toList then some (.number o.hWidth)
  else if k = "h_stroke_opacity".toList then some (.number o.hOpacity)
  else if k = "v_stroke".toList then some (.word o.vStroke)
  else if k = "v_stroke_width".toList then some (.number o.vWidth)
  else if k = "v_stroke_opacity".toList then some (.number o.vOpacity)
  else none

theorem dict_eq (o : LineCss ℝ) : o.dict = fun k => (lineSettings o k).map Setting.val := by
  funext k
  unfold LineCss.dict lineSettings
  split_ifs <;> rfl

theorem lineStyleOf (env : NumEnv ℝ) (c : Conv ℝ) (scale : ℝ) (fmt : ℝ → Str) (opts : Str → Option Setting) (a b w : Str) :
    styleOf env c scale fmt opts linesSettings [.lit "fill:none;stroke-linejoin:round;stroke:".toList, .slot false a, .lit ";stroke-width:".toList, .slot false b,
      .lit ";stroke-opacity:".toList, .slot false w, .lit ";".toList] =
    Pen.css ⟨(used opts (defaultOf linesSettings) a).written env c scale fmt, (used opts (defaultOf linesSettings) b).written env c scale fmt,
      (used opts (defaultOf linesSettings) w).written env c scale fmt⟩ := by
  unfold styleOf filledIn Pen.css
  simp only [List.flatMap_cons, List.flatMap_nil, List.append_nil]

theorem linePens (env : NumEnv ℝ) (c : Conv ℝ) (scale : ℝ) (fmt : ℝ → Str) (opts : Str → Option Setting) :
    (linesPieces.map fun t => (t.1, styleOf env c scale fmt opts linesSettings t.2)) =
      gridStyles ⟨(used opts (defaultOf linesSettings) "h_stroke".toList).written env c scale fmt, (used opts (defaultOf linesSettings) "h_stroke_width".toList).written env c scale fmt,
        (used opts (defaultOf linesSettings) "h_stroke_opacity".toList).written env c scale fmt⟩
      ⟨(used opts (defaultOf linesSettings) "v_stroke".toList).written env c scale fmt, (used opts (defaultOf linesSettings) "v_stroke_width".toList).written env c scale fmt,
        (used opts (defaultOf linesSettings) "v_stroke_opacity".toList).written env c scale fmt⟩ := by
  unfold linesPieces gridStyles
  rw [List.map_cons, List.map_cons, List.map_nil, lineStyleOf, lineStyleOf]

theorem lineSettings_at (o : LineCss ℝ) : lineSettings o "h_stroke".toList = some (.word o.hStroke) ∧ lineSettings o "h_stroke_width".toList = some (.number o.hWidth) ∧
    lineSettings o "h_stroke_opacity".toList = some (.number o.hOpacity) ∧ lineSettings o "v_stroke".toList = some (.word o.vStroke) ∧
    lineSettings o "v_stroke_width".toList = some (.number o.vWidth) ∧ lineSettings o "v_stroke_opacity".toList = some (.number o.vOpacity) := by
  refine ⟨?_, ?_, ?_, ?_, ?_, ?_⟩ <;> unfold lineSettings
  · rw [if_pos rfl]
  · rw [if_neg (by decide), if_pos rfl]
  · rw [if_neg (by decide), if_neg (by decide), if_pos rfl]
  · rw [if_neg (by decide), if_neg (by decide), if_neg (by decide), if_pos rfl]
  · rw [if_neg (by decide), if_neg (by decide), if_neg (by decide), if_neg (by decide), if_pos rfl]
  · rw [if_neg (by decide), if_neg (by decide), if_neg (by decide), if_neg (by decide), if_neg (by decide), if_pos rfl]

theorem lineSettings_suit (o : LineCss ℝ) : Suitable linesSettings (lineSettings o) := by
  intro k hk s hs
  unfold lineSettings at hs
  split_ifs at hs with h1 h2 h3 h4 h5 h6 <;> cases hs <;> first | trivial | skip
  · subst h1
    show ¬ IsLengthName _
    rw [← isSizeKey_iff]; decide
  · subst h4
    show ¬ IsLengthName _
    rw [← isSizeKey_iff]; decide

theorem lineStyles_dict (env : NumEnv ℝ) {c : Conv ℝ} (hc : c.Positive) (scale : ℝ) (fmt : ℝ → Str) (o : LineCss ℝ) :
    extStyles (fun t => unit2uu env c scale (.text t) "px".toList) fmt linesTemplates linesDefaults (some o.dict) =
      .ok (gridStyles ⟨o.hStroke, fmt o.hWidth, fmt o.hOpacity⟩ ⟨o.vStroke, fmt o.vWidth, fmt o.vOpacity⟩) := by
  have h := extStyles_spec env hc scale fmt lines_ok (lineSettings o) (lineSettings_suit o)
  rw [← dict_eq, linePens] at h
  obtain ⟨e1, e2, e3, e4, e5, e6⟩ := lineSettings_at o
  refine h.trans ?_
  unfold used
  rw [e1, e2, e3, e4, e5, e6]
  rfl

theorem lineDefaults_at : linesSettings.lookup "h_stroke".toList = some (.word "#c0c0c0".toList) ∧ linesSettings.lookup "h_stroke_width".toList = some (.len "1".toList none .pt) ∧
    linesSettings.lookup "h_stroke_opacity".toList = some (.word "1".toList) ∧ linesSettings.lookup "v_stroke".toList = some (.word "#c0c0c0".toList) ∧
    linesSettings.lookup "v_stroke_width".toList = some (.len "1".toList none .pt) ∧ linesSettings.lookup "v_stroke_opacity".toList = some (.word "1".toList) := by decide +kernel

theorem lineStyles_none (env : NumEnv ℝ) {c : Conv ℝ} (hc : c.Positive) (scale : ℝ) (fmt : ℝ → Str) :
    extStyles (fun t => unit2uu env c scale (.text t) "px".toList) fmt linesTemplates linesDefaults none = .ok (gridStyles (plainPen env scale fmt) (plainPen env scale fmt)) := by
  have h := extStyles_spec env hc scale fmt lines_ok (fun _ => none) (by intro k _ s hs; simp at hs)
  rw [linePens] at h
  simp only [Option.map_none] at h
  rw [← extStyles_none] at h
  obtain ⟨e1, e2, e3, e4, e5, e6⟩ := lineDefaults_at
  refine h.trans ?_
  unfold used defaultOf
  simp only [Option.getD_none]
  rw [e1, e2, e3, e4, e5, e6]
  rfl

/-- **C161 (line grids).**  Whatever the settings: with default styles the lines are grey and one point wide; otherwise the horizontal lines have the colour, width and opacity asked for,
and the vertical lines those of the horizontal ones if they are to be copied, and otherwise those asked for, as long as their opacity is not 0 (`C161_lines_refuted` says what happens then). -/
theorem C161_lines_partial (cenv : CssEnv) (env : NumEnv ℝ) {c : Conv ℝ} (hc : c.Positive) (scale : ℝ) (fmt : ℝ → Str) (o : LineCss ℝ) :
    let styles := lineStyles cenv (fun t => unit2uu env c scale (.text t) "px".toList) fmt o
    (o.cssDefault = true → styles = .ok (gridStyles (plainPen env scale fmt) (plainPen env scale fmt))) ∧
    (o.cssDefault = false → ∀ h, csscolorToCssrgb cenv (.text o.hStroke : Color ℝ) = .ok h →
      (o.copyCss = true → styles = .ok (gridStyles (asked env scale fmt h o.hWidth o.hOpacity) (asked env scale fmt h o.hWidth o.hOpacity))) ∧
      (o.copyCss = false → ∀ v, csscolorToCssrgb cenv (.text o.vStroke : Color ℝ) = .ok v → o.vOpacity ≠ 0 →
        styles = .ok (gridStyles (asked env scale fmt h o.hWidth o.hOpacity) (asked env scale fmt v o.vWidth o.vOpacity)))) := by
  intro styles
  refine ⟨?_, ?_⟩
  · intro hd
    show lineStyles _ _ _ _ = _
    unfold lineStyles
    rw [if_pos hd]
    exact lineStyles_none env hc scale fmt
  · intro hd h hh
    refine ⟨?_, ?_⟩
    · intro hcp
      show lineStyles _ _ _ _ = _
      unfold lineStyles hCss
      rw [if_neg (by simp [hd]), hh]
      simp only [bind, Except.bind, orPoint_spec env hc, pure, Except.pure, vCss, hcp, if_true, orTenth]
      rw [lineStyles_dict env hc]
      rfl
    · intro hcp v hv hv0
      show lineStyles _ _ _ _ = _
      unfold lineStyles hCss
      rw [if_neg (by simp [hd]), hh]
      have hne : (if o.hOpacity = 0 then (1 / 10 : ℝ) else o.hOpacity) ≠ 0 := by split_ifs <;> simp_all
      simp only [bind, Except.bind, orPoint_spec env hc, pure, Except.pure, vCss, hcp, hv, orTenth, Bool.false_eq_true, if_false, if_neg hne]
      rw [lineStyles_dict env hc]
      simp only [asked, if_neg hv0]

/-- **C161, refuted (opacity of the vertical lines).**  An opacity of 0 asked for the vertical lines stays 0 (they are invisible), whatever the other settings are: the code tests the
opacity of the horizontal lines a second time. -/
theorem C161_lines_refuted (cenv : CssEnv) (env : NumEnv ℝ) {c : Conv ℝ} (hc : c.Positive) (scale : ℝ) (fmt : ℝ → Str) (o : LineCss ℝ) (hd : o.cssDefault = false) (hcp : o.copyCss = false)
    {h v : Str} (hh : csscolorToCssrgb cenv (.text o.hStroke : Color ℝ) = .ok h) (hv : csscolorToCssrgb cenv (.text o.vStroke : Color ℝ) = .ok v) (h0 : o.vOpacity = 0) :
    lineStyles cenv (fun t => unit2uu env c scale (.text t) "px".toList) fmt o =
      .ok (gridStyles (asked env scale fmt h o.hWidth o.hOpacity) { asked env scale fmt v o.vWidth 1 with opacity := fmt 0 }) := by
  unfold lineStyles hCss
  rw [if_neg (by simp [hd]), hh]
  have hne : (if o.hOpacity = 0 then (1 / 10 : ℝ) else o.hOpacity) ≠ 0 := by split_ifs <;> simp_all
  simp only [bind, Except.bind, orPoint_spec env hc, pure, Except.pure, vCss, hcp, hv, orTenth, Bool.false_eq_true, if_false, if_neg hne]
  rw [lineStyles_dict env hc]
  simp only [asked, h0]

/-- Non-vacuity: red horizontal lines without width, blue vertical lines without opacity. -/
example (cenv : CssEnv) : csscolorToCssrgb cenv (.text "red".toList : Color ℝ) = .ok "#ff0000".toList ∧ csscolorToCssrgb cenv (.text "#00f".toList : Color ℝ) = .ok "#0000ff".toList ∧
    (Conv.default : Conv ℝ).Positive := by
  refine ⟨by rfl, by rfl, by norm_num [Conv.Positive, Conv.default]⟩

/-! ## The preview -/

/-- Specification: the settings of the preview at a scale. -/
def settingsAt (ds : List (Str × Default)) : List (Str × Default) := previewSettings ++ ds

/-- The values of a scale. -/
def scaleValues (name : Str) : List (Str × Str) := (previewScales.lookup name).getD []

theorem preview_some : ∀ s ∈ previewScaleSettings, (previewScales.lookup s.1).isSome = true := by decide +kernel

theorem preview_once : ∀ s ∈ previewScaleSettings, TableOk previewTemplates (dictUpdate previewDefaults (scaleValues s.1)) previewPieces (settingsAt s.2) := by decide +kernel

theorem preview_twice : ∀ s ∈ previewScaleSettings, ∀ s' ∈ previewScaleSettings,
    TableOk previewTemplates (dictUpdate (dictUpdate previewDefaults (scaleValues s.1)) (scaleValues s'.1)) previewPieces (settingsAt s'.2) := by decide +kernel

theorem scaleValues_eq {s : Str × List (Str × Default)} (hs : s ∈ previewScaleSettings) : previewScales.lookup s.1 = some (scaleValues s.1) := by
  have := preview_some s hs
  unfold scaleValues
  cases h : previewScales.lookup s.1 with
  | none => rw [h] at this; simp at this
  | some v => rfl

theorem preview_ok : ∀ s ∈ previewScaleSettings, ∃ values, previewScales.lookup s.1 = some values ∧ TableOk previewTemplates (dictUpdate previewDefaults values) previewPieces (settingsAt s.2) :=
  fun s hs => ⟨scaleValues s.1, scaleValues_eq hs, preview_once s hs⟩

theorem dictUpdate_same {d new : List (Str × Str)} (h : d.map Prod.fst = new.map Prod.fst) (hn : (new.map Prod.fst).Nodup) : dictUpdate d new = new := by
  unfold dictUpdate
  have h1 : (new.filter fun e => e.1 ∉ d.map Prod.fst) = [] := by
    rw [List.filter_eq_nil_iff]
    intro e he
    rw [h]
    simp only [decide_eq_true_eq, not_not]
    exact List.mem_map_of_mem he
  rw [h1, List.append_nil]
  have h2 : ∀ (pre d new : List (Str × Str)), d.map Prod.fst = new.map Prod.fst → ((pre ++ new).map Prod.fst).Nodup → d.map (fun e => (e.1, ((pre ++ new).lookup e.1).getD e.2)) = new := by
    intro pre d
    induction d generalizing pre with
    | nil =>
      intro new h _
      simpa using h.symm
    | cons e d ih =>
      intro new h hn
      cases new with
      | nil => simp at h
      | cons f new =>
        simp only [List.map_cons, List.cons.injEq] at h
        have hl : (pre ++ f :: new).lookup e.1 = some f.2 := by
          have hnp : f.1 ∉ pre.map Prod.fst := by
            rw [List.map_append, List.nodup_append] at hn
            intro hm
            exact hn.2.2 _ hm f.1 (by simp) rfl
          rw [h.1]
          clear ih hn
          induction pre with
          | nil => simp [List.lookup]
          | cons g pre ihp =>
            simp only [List.map_cons, List.mem_cons, not_or] at hnp
            rw [List.cons_append, List.lookup_cons, show (f.1 == g.1) = false from by simpa using hnp.1]
            exact ihp hnp.2
        rw [List.map_cons, hl]
        have := ih (pre ++ [f]) new h.2 (by simpa using hn)
        simp only [List.append_assoc, List.singleton_append] at this
        rw [this, Option.getD_some, h.1]
  exact h2 [] d new h (by simpa using hn)

/-- **C161 (preview).**  The styles of the preview are the templates with the settings of the scale asked for (`small`, `medium` or `large`), in user units; another scale raises `KeyError`. -/
theorem C161_preview (env : NumEnv ℝ) {c : Conv ℝ} (hc : c.Positive) (scale : ℝ) (fmt : ℝ → Str) :
    (∀ s ∈ previewScaleSettings, ∃ d, newPlotter (fun t => unit2uu env c scale (.text t) "px".toList) fmt .initial s.1 =
      .ok ⟨previewPieces.map fun t => (t.1, styleOf env c scale fmt (fun _ => none) (settingsAt s.2) t.2), d⟩) ∧
    ∀ cls name, name ∉ previewScaleSettings.map Prod.fst → newPlotter (fun t => unit2uu env c scale (.text t) "px".toList) fmt cls name = .error .keyError := by
  refine ⟨?_, ?_⟩
  · intro s hs
    obtain ⟨values, h1, h2⟩ := preview_ok s hs
    refine ⟨dictUpdate previewDefaults values, ?_⟩
    unfold newPlotter
    rw [h1]
    simp only [PlotterClass.initial]
    have := extStyles_spec env hc scale fmt h2 (fun _ => none) (by intro k _ s hs; simp at hs)
    simp only [Option.map_none] at this
    rw [extStyles_none, this]
    simp only [bind, Except.bind, pure, Except.pure]
    rw [dictUpdate_same]
    · rw [h2.1]; simp [Function.comp_def]
    · rw [List.map_map]
      show (previewPieces.map fun t => t.1).Nodup
      decide +kernel
  · intro cls name hn
    have : previewScales.lookup name = none := by
      rw [List.lookup_eq_none_iff]
      intro p hp
      have hm : ∀ p ∈ previewScales, p.1 ∈ previewScaleSettings.map Prod.fst := by decide +kernel
      simp only [bne_iff_ne, ne_eq]
      rintro rfl
      exact hn (hm p hp)
    unfold newPlotter
    rw [this]

theorem fillAll_fixed (look : Str → Except PyErr Str) : ∀ ts : List (Str × Str), (∀ t ∈ ts, '$' ∉ t.2) → fillAll look ts = .ok ts := by
  intro ts
  induction ts with
  | nil => intro _; rfl
  | cons t ts ih =>
    intro h
    unfold fillAll
    rw [(C160_missing look t.2).1 (h t (by simp)), ih (fun t ht => h t (by simp [ht]))]
    rfl

theorem filledIn_noDollar (value : Str → Str) : ∀ ps : List Piece, WellFormed ps → .dollar ∉ ps → (∀ n ∈ slotNames ps, '$' ∉ value n) → '$' ∉ filledIn value ps := by
  intro ps
  induction ps with
  | nil => intro _ _ _; simp [filledIn]
  | cons p ps ih =>
    intro hw hd hv
    have hd' : Piece.dollar ∉ ps := fun h => hd (by simp [h])
    have hv' : ∀ n ∈ slotNames ps, '$' ∉ value n := fun n hn => hv n (by
      simp only [slotNames, List.filterMap_cons] at hn ⊢
      split
      · exact hn
      · exact List.mem_cons_of_mem _ hn)
    unfold filledIn
    rw [List.flatMap_cons, List.mem_append, not_or]
    cases p with
    | lit s => exact ⟨hw.1, ih hw.2 hd' hv'⟩
    | dollar => simp at hd
    | slot b n =>
      refine ⟨hv n (by simp [slotNames]), ?_⟩
      cases b with
      | true => exact ih hw.2 hd' hv'
      | false => exact ih hw.2.2 hd' hv'

/-- A default is written without a dollar sign. -/
def Default.clean : Default → Bool
  | .len _ _ _ => true
  | .word s => !s.contains '$'

theorem defaultOf_clean {ds : List (Str × Default)} (h : ∀ d ∈ ds, d.2.clean = true) (env : NumEnv ℝ) (c : Conv ℝ) (scale : ℝ) {fmt : ℝ → Str} (hf : ∀ x, '$' ∉ fmt x) (k : Str) :
    '$' ∉ (defaultOf ds k).written env c scale fmt := by
  unfold defaultOf
  have hcl : ((ds.lookup k).getD (.word [])).clean = true := by
    cases hl : ds.lookup k with
    | none => rfl
    | some d =>
      obtain ⟨l1, l2, rfl, -⟩ := List.lookup_eq_some_iff.1 hl
      exact h (k, d) (by simp)
  cases hx : (ds.lookup k).getD (.word []) with
  | len a b u => exact hf _
  | word s =>
    rw [hx] at hcl
    simp only [Default.clean, List.contains_eq_mem, Bool.not_eq_true', decide_eq_false_iff_not] at hcl
    exact hcl

theorem newPlotter_again (env : NumEnv ℝ) {c c' : Conv ℝ} (hc' : c'.Positive) (scale scale' : ℝ) {fmt fmt' : ℝ → Str} (hf : ∀ x, '$' ∉ fmt x)
    (s : Str × List (Str × Default)) (hs : s ∈ previewScaleSettings) (s' : Str × List (Str × Default)) (hs' : s' ∈ previewScaleSettings) {values values' : List (Str × Str)}
    (h1 : previewScales.lookup s.1 = some values) (h1' : previewScales.lookup s'.1 = some values')
    (h2 : TableOk previewTemplates (dictUpdate (dictUpdate previewDefaults values) values') previewPieces (settingsAt s'.2)) :
    ∃ d, newPlotter (fun t => unit2uu env c' scale' (.text t) "px".toList) fmt' ⟨previewPieces.map fun t => (t.1, styleOf env c scale fmt (fun _ => none) (settingsAt s.2) t.2),
      dictUpdate previewDefaults values⟩ s'.1 = .ok ⟨previewPieces.map fun t => (t.1, styleOf env c scale fmt (fun _ => none) (settingsAt s.2) t.2), d⟩ := by
  refine ⟨dictUpdate (dictUpdate previewDefaults values) values', ?_⟩
  have hm := extStyles_spec env hc' scale' fmt' h2 (fun _ => none) (by intro k _ s hs; simp at hs)
  simp only [Option.map_none] at hm
  unfold newPlotter
  rw [h1']
  have hmap : ∃ m, templateMap (fun t => unit2uu env c' scale' (.text t) "px".toList) none ((dictUpdate (dictUpdate previewDefaults values) values').map fun d => (d.1, some (Val.text d.2))) = .ok m := by
    rw [← extStyles_none] at hm
    unfold extStyles stylesFromTemplates at hm
    revert hm
    generalize templateMap _ _ _ = q
    intro hm
    cases q with
    | error e => simp [bind, Except.bind] at hm
    | ok m => exact ⟨m, rfl⟩
  obtain ⟨m, hmap⟩ := hmap
  simp only [extStyles, stylesFromTemplates, hmap, bind, Except.bind]
  rw [fillAll_fixed]
  · simp only [pure, Except.pure]
    rw [dictUpdate_same rfl]
    rw [List.map_map]
    show (previewPieces.map fun t => t.1).Nodup
    decide +kernel
  · intro t ht
    obtain ⟨p, hp, rfl⟩ := List.mem_map.1 ht
    have hnd : ∀ p ∈ previewPieces, Piece.dollar ∉ p.2 := by decide +kernel
    refine filledIn_noDollar _ p.2 (h2.2.2.2.2.1 p hp) (hnd p hp) ?_
    intro n _
    simp only [used, Option.getD_none]
    refine defaultOf_clean ?_ env c scale hf n
    have : ∀ s ∈ previewScaleSettings, ∀ d ∈ settingsAt s.2, d.2.clean = true := by decide +kernel
    exact this s hs

/-- **C161, refuted (two previews).**  The styles belong to the class and are filledIn in only once: a second preview in the same program has the styles of the first one, whatever its own
scale (`small`, `medium` or `large`), its document's scale and its number format are.  (Numbers are written without dollar signs.) -/
theorem C161_preview_refuted (env : NumEnv ℝ) {c c' : Conv ℝ} (hc : c.Positive) (hc' : c'.Positive) (scale scale' : ℝ) {fmt fmt' : ℝ → Str} (hf : ∀ x, '$' ∉ fmt x)
    (s : Str × List (Str × Default)) (hs : s ∈ previewScaleSettings) (s' : Str × List (Str × Default)) (hs' : s' ∈ previewScaleSettings) :
    ∃ one two, newPlotter (fun t => unit2uu env c scale (.text t) "px".toList) fmt .initial s.1 = .ok one ∧
      newPlotter (fun t => unit2uu env c' scale' (.text t) "px".toList) fmt' one s'.1 = .ok two ∧ two.templates = one.templates ∧
      one.templates = previewPieces.map fun t => (t.1, styleOf env c scale fmt (fun _ => none) (settingsAt s.2) t.2) := by
  obtain ⟨values, h1, h2⟩ := preview_ok s hs
  obtain ⟨values', h1', -⟩ := preview_ok s' hs'
  have hfirst : newPlotter (fun t => unit2uu env c scale (.text t) "px".toList) fmt .initial s.1 =
      .ok ⟨previewPieces.map fun t => (t.1, styleOf env c scale fmt (fun _ => none) (settingsAt s.2) t.2), dictUpdate previewDefaults values⟩ := by
    obtain ⟨d, hd⟩ := (C161_preview env hc scale fmt).1 s hs
    have e : d = dictUpdate previewDefaults values := by
      unfold newPlotter at hd
      rw [h1] at hd
      simp only [PlotterClass.initial] at hd
      revert hd
      generalize extStyles _ _ _ _ _ = q
      intro hd
      cases q with
      | error e => simp [bind, Except.bind] at hd
      | ok x =>
        simp only [bind, Except.bind, pure, Except.pure, Except.ok.injEq, PlotterClass.mk.injEq] at hd
        exact hd.2.symm
    rw [hd, e]
  have h3 : TableOk previewTemplates (dictUpdate (dictUpdate previewDefaults values) values') previewPieces (settingsAt s'.2) := by
    have e := scaleValues_eq hs
    have e' := scaleValues_eq hs'
    rw [h1, Option.some.injEq] at e
    rw [h1', Option.some.injEq] at e'
    rw [e, e']
    exact preview_twice s hs s' hs'
  obtain ⟨d, hd⟩ := newPlotter_again env hc' scale scale' hf s hs s' hs' h1 h1' h3 (fmt' := fmt') (c := c)
  exact ⟨_, _, hfirst, hd, rfl, rfl⟩

/-- Non-vacuity: a feed line of the large preview is two points wide, one of the small preview one pixel. -/
example (env : NumEnv ℝ) (fmt : ℝ → Str) :
    styleOf env Conv.default 1 fmt (fun _ => none) (settingsAt (previewScaleSettings.getLast (by decide)).2) [.slot false "feedline_stroke_width".toList] = fmt (env.ofDec false 2 0 * 1.25 * 1) ∧
    styleOf env Conv.default 1 fmt (fun _ => none) (settingsAt (previewScaleSettings.head (by decide)).2) [.slot false "feedline_stroke_width".toList] = fmt (env.ofDec false 1 0 * 1 * 1) := by
  have e1 : (settingsAt (previewScaleSettings.getLast (by decide)).2).lookup "feedline_stroke_width".toList = some (.len "2".toList none .pt) := by decide +kernel
  have e2 : (settingsAt (previewScaleSettings.head (by decide)).2).lookup "feedline_stroke_width".toList = some (.len "1".toList none .px) := by decide +kernel
  constructor
  · simp only [styleOf, filledIn, List.flatMap_cons, List.flatMap_nil, used, defaultOf, e1, Option.getD_some, Option.getD_none, Setting.written, List.append_nil, Default.setting, lengthOf,
      LenUnit.size, Numeral.value, Numeral.negative, Numeral.exponent, expValue]
    rfl
  · simp only [styleOf, filledIn, List.flatMap_cons, List.flatMap_nil, used, defaultOf, e2, Option.getD_some, Option.getD_none, Setting.written, List.append_nil, Default.setting, lengthOf,
      LenUnit.size, Numeral.value, Numeral.negative, Numeral.exponent, expValue]
    rfl

end Verif.Ext
