import Verif.Cam.Props14
import Verif.Svg.Props9
import Mathlib.Analysis.SpecialFunctions.Log.Base

/-!
# C102, C103: units of the G code
-/

set_option linter.unusedSectionVars false

namespace Verif.Cam
open Verif PyFloat PyTrig Geom GCode
open Verif.Svg (LenUnit Numeral)

/-! ## The fields set by `_init_gcode` -/

section
variable {K : Type} [PyTrig K]

/-- All settings of the generator that come from the options. -/
theorem initGcode_fields {env : TEnv K} {doc : DocInfo K} {o : TOpts K} {g : Gen K} (h : initGcode env doc o = .ok g) :
    ∃ af u k n, angularFeed o = .ok af ∧ gcodeUnit o.gcodeUnits doc.docUnits = .ok u ∧ (u = "in".toList ∨ u = "mm".toList) ∧
      Svg.uu2unit env.num doc.conv doc.viewScale (.text "1.0".toList) u = .ok k ∧ outputDigits env o.tolerance = .ok n ∧
      g.cfg.gcUnit = u ∧ g.cfg.unitScale = k ∧ g.cfg.afeed = af ∧ g.cfg.xyfeed = o.xyFeed ∧ g.cfg.zfeed = o.zFeed ∧
      g.cfg.digits = (max (min n 15) 2).toNat ∧ g.cfg.waitDown = o.toolWait ∧ g.cfg.waitUp = o.toolWait ∧
      g.cfg.spWaitOn = o.spindleWaitOn *. ofInt 1000 ∧ g.cfg.tol = o.tolerance ∧
      g.cfg.axisScale = (fun _ => none) ∧ g.cfg.axisOffset = (fun _ => none) := by
  obtain ⟨af, u, k, n, h1, h2, h3, h4, h5, rfl⟩ := initGcode_spec h
  obtain ⟨-, -, a1, a2, a3, a4, a5, a6, a7, a8, a9, a10, -, -, a13, a14⟩ :=
    finishGen_fields o n { (newGen env o af) with cfg.gcUnit := u, cfg.unitScale := k }
  refine ⟨af, u, k, n, h1, h2, h4, h3, h5, a2, a1, ?_, ?_, ?_, a7, a4, a5, a6, a3, ?_, ?_⟩
  · rw [a10]; unfold newGen; rw [foldl_headers]; rfl
  · rw [a8]; unfold newGen; rw [foldl_headers]; rfl
  · rw [a9]; unfold newGen; rw [foldl_headers]; rfl
  · rw [a13]; unfold newGen; rw [foldl_headers]; rfl
  · rw [a14]; unfold newGen; rw [foldl_headers]; rfl

/-- Programs only grow. -/
theorem cam_prefix (cs : List (Call K)) (hc : ∀ c ∈ cs, CamCall c) (g : Gen K) (ht : TrackInv g) :
    blocksOf g.out <+: blocksOf (g.run cs).out := by
  induction cs generalizing g with
  | nil => exact List.prefix_refl _
  | cons c cs ih =>
    have hcc := hc c (by simp)
    obtain ⟨l, hadd, -⟩ := cam_adds g c hcc ht.map ht.altUp ht.altDown
    have h2 := ih (fun c' h' => hc c' (by simp [h'])) (g.step c).1 (trackInv_step _ _ ht hcc.trackable)
    refine List.IsPrefix.trans ?_ h2
    rw [show blocksOf (g.step c).1.out = _ from hadd]
    exact List.prefix_append _ _

end

/-! ## C102: the unit of the coordinates -/

/-- Specification: exact decimal numbers and the exact logarithm. -/
noncomputable def realEnv (v : Str) : TEnv ℝ where
  num := ⟨fun neg m e => (if neg then -(m : ℝ) else m) * (10 : ℝ) ^ e⟩
  log10 := Real.logb 10
  version := v

/-- The numeral `1.0`. -/
def oneNumeral : Numeral := ⟨none, ['1'], some ['0'], none⟩

theorem oneNumeral_valid : oneNumeral.Valid := ⟨by decide, by intro ds h; cases h; decide, by decide, by intro u s ds h; cases h⟩

theorem oneNumeral_value (v : Str) : oneNumeral.value (realEnv v).num = 1 := by
  have h1 : oneNumeral.negative = false := rfl
  have h2 : Svg.natOf (oneNumeral.ip ++ oneNumeral.frac.getD []) = 10 := by decide
  have h3 : oneNumeral.exponent = -1 := by decide
  unfold Numeral.value
  rw [h1, h2, h3]
  norm_num [realEnv]

theorem unitScale_real (v : Str) (doc : DocInfo ℝ) (hc : doc.conv.Positive) (hs : doc.viewScale ≠ 0) (u : LenUnit) :
    Svg.uu2unit (realEnv v).num doc.conv doc.viewScale (.text "1.0".toList) u.name = .ok (1 / (u.size doc.conv.em doc.conv.ex * doc.viewScale)) := by
  have hsz := (Svg.size_pos hc u).ne'
  have h := (Svg.C75_round_trip_partial (realEnv v).num hc hs oneNumeral_valid u).2 (1 / (u.size doc.conv.em doc.conv.ex * doc.viewScale)) (by
    simp only [Svg.unit2uu, Svg.get_eq, oneNumeral_value]
    congr 1
    simp only [real_mul]
    field_simp)
  exact h

/-- The machine units. -/
theorem unit_cases {u : Str} (h : u = "in".toList ∨ u = "mm".toList) : ∃ w : LenUnit, (w = .inch ∨ w = .mm) ∧ u = w.name := by
  rcases h with rfl | rfl
  · exact ⟨.inch, .inl rfl, rfl⟩
  · exact ⟨.mm, .inr rfl, rfl⟩

/-- The scale in force in a run. -/
theorem generated_scale {v : Str} {doc : DocInfo ℝ} (hc : doc.conv.Positive) (hs : doc.viewScale ≠ 0) {e : Env ℝ} {o : TOpts ℝ}
    {l : List (Path ℝ)} {ds : List ℝ} {s : Cam ℝ} (h : Generated (realEnv v) doc e o l ds s) :
    ∃ u : LenUnit, (u = .inch ∨ u = .mm) ∧ gcodeUnit o.gcodeUnits doc.docUnits = .ok u.name ∧
      ∀ k ∈ ['X', 'Y', 'Z'], ∀ x, specImage s.gen.cfg k x = x / (u.size doc.conv.em doc.conv.ex * doc.viewScale) := by
  obtain ⟨g, hg, hgen⟩ := h
  obtain ⟨af, u', k, n, -, hu, hu', hk, -, -, hsc, -, -, -, -, -, -, -, -, hax, hof⟩ := initGcode_fields hg
  obtain ⟨u, hu2, rfl⟩ := unit_cases hu'
  rw [unitScale_real v doc hc hs u] at hk
  obtain ⟨cs, hext, hcs⟩ := generate_calls hgen
  have hs' : s.gen = g.run cs := hext.2
  obtain ⟨hc', hcfg⟩ := cam_run_cfg cs hcs g
  refine ⟨u, hu2, hu, ?_⟩
  intro ax hax' x
  have hA : ax ≠ 'A' := by rintro rfl; simp at hax'
  have hk' : 1 / (u.size doc.conv.em doc.conv.ex * doc.viewScale) = k := by injection hk
  unfold specImage
  rw [hs', hcfg]
  simp only [hax, hof, hsc, Option.getD_none, if_neg hA, ← hk']
  simp only [real_mul, real_add, real_one, real_zero]
  ring

/-- **C102**, coordinates: for every document (with positive font sizes and a nonzero view scale), all settings and all paths, the G code is in
inches or in millimetres, as chosen by the settings (see `C102_choice`), and wherever `position` puts X, Y or Z in user units, there the
machine is, in the chosen unit. -/
theorem C102_coordinates (v : Str) (doc : DocInfo ℝ) (hc : doc.conv.Positive) (hs : doc.viewScale ≠ 0) (e : Env ℝ) (o : TOpts ℝ)
    (l : List (Path ℝ)) (ds : List ℝ) (s : Cam ℝ) (h : Generated (realEnv v) doc e o l ds s) :
    ∃ u : LenUnit, (u = .inch ∨ u = .mm) ∧ gcodeUnit o.gcodeUnits doc.docUnits = .ok u.name ∧
      ∀ axis ∈ ['X', 'Y', 'Z'], ∀ x, s.gen.position [axis] = .ok (some x) →
        ∃ y, s.gen.machine.pos axis = some y ∧ Svg.unit2uu (realEnv v).num doc.conv doc.viewScale (.num y) u.name = .ok x := by
  obtain ⟨u, hu, hgu, himg⟩ := generated_scale hc hs h
  refine ⟨u, hu, hgu, ?_⟩
  obtain ⟨g, hg, hgen⟩ := h
  obtain ⟨cs, hext, hcs⟩ := generate_calls hgen
  have hs' : s.gen = g.run cs := hext.2
  intro ax hax x hx
  have hax' : ax ∈ ['X', 'Y', 'Z', 'A'] := by simp only [List.mem_cons, List.not_mem_nil, or_false] at hax ⊢; tauto
  rw [hs'] at hx
  have := C01_position_tracking_partial g (initGcode_fresh hg) cs (fun c hc => (hcs c hc).trackable) ax hax' (some x) hx
  rw [← hs'] at this
  refine ⟨_, this, ?_⟩
  rw [himg ax hax x]
  have hsz := (Svg.size_pos hc u).ne'
  simp only [Svg.unit2uu, Svg.get_eq, real_mul]
  congr 1
  field_simp

/-- **C102**, the header: the program is empty (nothing was started) or its second line declares the unit: `G20` for inches, `G21` for
millimetres. -/
theorem C102_declared {K : Type} [PyTrig K] (env : TEnv K) (doc : DocInfo K) (e : Env K) (o : TOpts K) (l : List (Path K)) (ds : List K) (s : Cam K)
    (h : Generated env doc e o l ds s) :
    (blocksOf s.gen.out = [] ∧ s.err.isSome) ∨
    (gcodeUnit o.gcodeUnits doc.docUnits = .ok "in".toList ∧ [⟨"G17".toList, []⟩, ⟨"G20".toList, []⟩] <+: blocksOf s.gen.out) ∨
    (gcodeUnit o.gcodeUnits doc.docUnits = .ok "mm".toList ∧ [⟨"G17".toList, []⟩, ⟨"G21".toList, []⟩] <+: blocksOf s.gen.out) := by
  obtain ⟨g, hg, hgen⟩ := h
  obtain ⟨af, u, k, n, -, hu, hu', -, -, hgu, -⟩ := initGcode_fields hg
  have hf := initGcode_fresh hg
  have hf0 : blocksOf g.out = [] := by rw [hf.out]; rfl
  -- the header is written first
  have key : ∀ paths, Reach CamCall ((Cam.init g).start e paths) s →
      [⟨"G17".toList, []⟩, ⟨if u = "mm".toList then "G21".toList else "G20".toList, []⟩] <+: blocksOf s.gen.out := by
    rintro paths ⟨cs, hext, hcs⟩
    have hst : Reach CamCall (((Cam.init g).emit (.addHeaderComment (.many [[], "Path count: ".toList ++ natDigits paths.length]))).emit (.header e.today .none))
        ((Cam.init g).start e paths) := reach_emit _ _ rfl
    obtain ⟨cs', hext', hcs'⟩ := hst.trans ⟨cs, hext, hcs⟩
    have hgen' := hext'.2
    rw [emit_eq (s := Cam.init g) rfl, emit_eq (by rfl)] at hgen'
    dsimp only [Cam.init] at hgen'
    rw [hgen']
    generalize hp : CommentArg.many [[], "Path count: ".toList ++ natDigits paths.length] = cm
    have ht : TrackInv ((g.step (.addHeaderComment cm)).1.step (.header e.today .none)).1 :=
      trackInv_step _ _ (trackInv_step _ _ (trackInv_fresh g hf) trivial) trivial
    refine List.IsPrefix.trans ?_ (cam_prefix cs' hcs' _ ht)
    have hb := C20_header_lines (g.step (.addHeaderComment cm)).1 e.today .none
    have e1 : blocksOf (g.step (.addHeaderComment cm)).1.out = [] := hf0
    have e2 : (g.step (.addHeaderComment cm)).1.cfg.gcUnit = u := hgu
    rw [show blocksOf (((g.step (.addHeaderComment cm)).1.step (.header e.today .none)).1).out = _ from hb, e1, e2]
    simp [List.prefix_iff_eq_take]
  have fin : ∀ paths, Reach CamCall ((Cam.init g).start e paths) s →
      (gcodeUnit o.gcodeUnits doc.docUnits = .ok "in".toList ∧ [⟨"G17".toList, []⟩, ⟨"G20".toList, []⟩] <+: blocksOf s.gen.out) ∨
      (gcodeUnit o.gcodeUnits doc.docUnits = .ok "mm".toList ∧ [⟨"G17".toList, []⟩, ⟨"G21".toList, []⟩] <+: blocksOf s.gen.out) := by
    intro paths hr
    have := key paths hr
    rcases hu' with rfl | rfl
    · rw [if_neg (by decide)] at this
      exact .inl ⟨hu, this⟩
    · rw [if_pos rfl] at this
      exact .inr ⟨hu, this⟩
  cases hgen with
  | fails er h =>
    refine .inl ⟨?_, ?_⟩
    · show blocksOf ((Cam.init g).raise er).gen.out = []
      have : ((Cam.init g).raise er).gen = g := by unfold Cam.raise; split <;> rfl
      rw [this, hf0]
    · have := raise_err (Cam.init g) er
      exact Option.isSome_iff_ne_none.2 this
  | noStart paths => exact .inr (fin paths (Reach.refl _ _))
  | runs paths ds s1 _ _ hl => exact .inr (fin paths ((reach_depthLoop hl).trans (reach_finish _ s1)))

/-- **C102**, the choice of the unit: an explicit unit is used as it is; "document units" means millimetres for documents in mm, cm, m, and
inches for documents in px, pt, pc, in, ft, yd; documents in em or ex are rejected. -/
theorem C102_choice (d : LenUnit) (units : Str) :
    (units ≠ "doc".toList → gcodeUnit units d.name = .ok units) ∧
    (gcodeUnit "doc".toList d.name =
      if d ∈ [LenUnit.mm, .cm, .m] then .ok LenUnit.mm.name
      else if d ∈ [LenUnit.px, .pt, .pc, .inch, .ft, .yd] then .ok LenUnit.inch.name else .error .runtime) := by
  refine ⟨fun h => by unfold gcodeUnit; rw [if_neg h], ?_⟩
  cases d <;> decide

/-! ## C103: heights -/

/-- **C103**, what holds: at the end of a completed program the machine is at the height `z_safe` of the settings, in machine units, exactly if
that is zero or one user unit is one machine unit.  Missing: other documents (`C103_refuted`). -/
theorem C103_height_partial (v : Str) (doc : DocInfo ℝ) (hc : doc.conv.Positive) (hs : doc.viewScale ≠ 0) (e : Env ℝ) (o : TOpts ℝ)
    (l : List (Path ℝ)) (ds : List ℝ) (s : Cam ℝ) (h : Generated (realEnv v) doc e o l ds s) (herr : s.err = none) :
    ∃ u : LenUnit, (u = .inch ∨ u = .mm) ∧ gcodeUnit o.gcodeUnits doc.docUnits = .ok u.name ∧
      (s.gen.machine.pos 'Z' = some o.zSafe ↔ o.zSafe = 0 ∨ u.size doc.conv.em doc.conv.ex * doc.viewScale = 1) := by
  obtain ⟨u, hu, hgu, himg⟩ := generated_scale hc hs h
  refine ⟨u, hu, hgu, ?_⟩
  rw [C101_ends_raised _ _ _ _ _ _ _ h herr, himg 'Z' (by simp)]
  have hm : u.size doc.conv.em doc.conv.ex * doc.viewScale ≠ 0 := mul_ne_zero (Svg.size_pos hc u).ne' hs
  simp only [Option.some.injEq]
  constructor
  · intro h
    by_cases h0 : o.zSafe = 0
    · exact .inl h0
    · right
      rw [div_eq_iff hm] at h
      exact (mul_left_cancel₀ h0 (by linarith)).symm
  · rintro (h | h)
    · rw [h]; simp
    · rw [h]; simp

end Verif.Cam
