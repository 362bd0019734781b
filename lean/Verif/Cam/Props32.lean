import Verif.Cam.Header
import Verif.Cam.Props27
import Verif.Cam.Props15

/-!
# C184: the header of the program and the settings listed in it
-/

set_option linter.unusedSectionVars false
set_option linter.unusedVariables false

namespace Verif.Cam
open Verif PyFloat PyTrig GCode

/-! ## Specification -/

/-- Specification: a line of comment. -/
def noteLine (t : Str) : Str := if t = [] then ";\n".toList else "; ".toList ++ t ++ "\n".toList

/-- Specification: the lines of the header of a program for `n` paths. -/
def headerNotes (today version : Str) (settings : Option (List Str)) (n : Nat) : List Str :=
  [headerDashes, "Creation date: ".toList ++ today, "Target machine: LinuxCNC, version 2.4+".toList,
    "Generated by TCNC Version ".toList ++ version, []] ++
  (match settings with
    | some l => "Settings:".toList :: l
    | none => []) ++ [[], "Path count: ".toList ++ natDigits n, headerDashes]

/-! ## The text only grows -/

section
variable {K : Type} [PyTrig K]

theorem out_stable (c : Cfg K) (pre : List (Out K)) : Stable c (fun g : Gen K => pre <+: g.out) :=
  ⟨fun g s _ hp => hp.trans (List.prefix_append _ _), fun g b com _ _ hp => hp.trans (List.prefix_append _ _), fun g l up r _ hp => hp⟩

theorem out_step (g : Gen K) (c : Call K) : g.out <+: (g.step c).1.out := by
  by_cases hc : c.isConfig = true
  · obtain ⟨c', h⟩ := config_step g c hc
    rw [h]
  · exact (pres_step (out_stable g.cfg g.out) g c rfl (by simpa using hc)).2 (List.prefix_refl _)

theorem out_run (cs : List (Call K)) (g : Gen K) : g.out <+: (g.run cs).out := by
  induction cs generalizing g with
  | nil => exact List.prefix_refl _
  | cons c cs ih => exact (out_step g c).trans (ih _)

theorem text_grows {g g' : Gen K} (h : g.out <+: g'.out) : g.text <+: g'.text := by
  obtain ⟨t, ht⟩ := h
  unfold Gen.text
  rw [← ht, List.map_append, List.flatten_append]
  exact List.prefix_append _ _

/-! ## The text of the header -/

theorem writeComment_text (g : Gen K) (t : Str) : (g.writeComment (some t) true).text = g.text ++ noteLine t ∧ (g.writeComment (some t) true).cfg = g.cfg := by
  unfold Gen.writeComment noteLine Gen.text Gen.writeRaw
  dsimp only
  by_cases h : t = []
  · subst h
    simp [Out.render]
  · have : t.isEmpty = false := by simpa using h
    simp [this, h, Out.render]

/-- The lines of one comment. -/
def argLines : CommentArg → List Str
  | .none => []
  | .one s => [s]
  | .many l => l

theorem comment_text (g : Gen K) (h : g.cfg.showComments = true) (a : CommentArg) (ha : a ≠ .none) :
    (g.comment a).text = g.text ++ ((argLines a).map noteLine).flatten ∧ (g.comment a).cfg = g.cfg := by
  unfold Gen.comment
  rw [if_pos h]
  cases a with
  | none => exact absurd rfl ha
  | one s =>
    obtain ⟨h1, h2⟩ := writeComment_text g s
    refine ⟨?_, h2⟩
    show (g.writeComment (some s) true).text = _
    rw [h1]
    simp [argLines]
  | many l =>
    show (l.foldl (fun g s => g.writeComment (some s) true) g).text = _ ∧ (l.foldl (fun g s => g.writeComment (some s) true) g).cfg = _
    show _ = g.text ++ (l.map noteLine).flatten ∧ _
    clear ha
    induction l generalizing g with
    | nil => simp
    | cons s l ih =>
      obtain ⟨h1, h2⟩ := writeComment_text g s
      obtain ⟨i1, i2⟩ := ih (g.writeComment (some s) true) (by rw [h2]; exact h)
      rw [List.foldl_cons]
      refine ⟨?_, i2.trans h2⟩
      rw [i1, h1]
      simp

theorem comments_text (l : List CommentArg) (g : Gen K) (h : g.cfg.showComments = true) (hl : ∀ a ∈ l, a ≠ .none) :
    (l.foldl (fun g c => g.comment c) g).text = g.text ++ ((l.flatMap argLines).map noteLine).flatten ∧ (l.foldl (fun g c => g.comment c) g).cfg = g.cfg := by
  induction l generalizing g with
  | nil => simp
  | cons a l ih =>
    obtain ⟨h1, h2⟩ := comment_text g h a (hl a (by simp))
    obtain ⟨i1, i2⟩ := ih (g.comment a) (by rw [h2]; exact h) (fun b hb => hl b (by simp [hb]))
    rw [List.foldl_cons]
    refine ⟨?_, i2.trans h2⟩
    rw [i1, h1]
    simp

theorem headerFront_text (g : Gen K) (h : g.cfg.showComments = true) (hl : ∀ a ∈ g.cfg.headerComments, a ≠ .none) (today : Str) :
    (g.headerFront today .none).text = g.text ++ "%\n".toList ++
      (([headerDashes, "Creation date: ".toList ++ today, "Target machine: LinuxCNC, version 2.4+".toList] ++
        g.cfg.headerComments.flatMap argLines ++ [headerDashes]).map noteLine).flatten ++ "\n".toList := by
  have raw : ∀ (g : Gen K) (s : Str), (g.writeRaw s).text = g.text ++ s := by
    intro g s
    simp [Gen.text, Gen.writeRaw, Out.render]
  unfold Gen.headerFront
  dsimp only
  have t0 := raw g ['%', '\n']
  have c0 : (g.writeRaw ['%', '\n']).cfg = g.cfg := rfl
  generalize g.writeRaw ['%', '\n'] = g0 at t0 c0 ⊢
  obtain ⟨t1, c1⟩ := comment_text g0 (by rw [c0]; exact h) (.one headerDashes) (by simp)
  generalize g0.comment (.one headerDashes) = g1 at t1 c1 ⊢
  obtain ⟨t2, c2⟩ := comment_text g1 (by rw [c1, c0]; exact h) (.one ("Creation date: ".toList ++ today)) (by simp)
  generalize g1.comment (.one ("Creation date: ".toList ++ today)) = g2 at t2 c2 ⊢
  obtain ⟨t3, c3⟩ := comment_text g2 (by rw [c2, c1, c0]; exact h) (.one "Target machine: LinuxCNC, version 2.4+".toList) (by simp)
  generalize g2.comment (.one "Target machine: LinuxCNC, version 2.4+".toList) = g3 at t3 c3 ⊢
  have c3' : g3.cfg = g.cfg := by rw [c3, c2, c1, c0]
  obtain ⟨t4, c4⟩ := comments_text g3.cfg.headerComments g3 (by rw [c3']; exact h) (by rw [c3']; exact hl)
  generalize g3.cfg.headerComments.foldl (fun g c => g.comment c) g3 = g4 at t4 c4 ⊢
  show ((g4.comment (.one headerDashes)).writeRaw ['\n']).text = _
  obtain ⟨t5, -⟩ := comment_text g4 (by rw [c4, c3']; exact h) (.one headerDashes) (by simp)
  rw [raw, t5, t4, t3, t2, t1, t0, c3']
  simp [argLines]

theorem header_front (g : Gen K) (today : Str) (com : CommentArg) : (g.headerFront today com).out <+: (g.header today com).1.out := by
  rw [header_eq]
  dsimp only
  have hI := out_stable (g.headerFront today com).cfg (g.headerFront today com).out
  generalize g.headerFront today com = g1 at hI ⊢
  have hg : g1.cfg = g1.cfg := rfl
  have h2 := pres_headerModal hI g1 hg
  generalize g1.headerModal = g2 at h2 ⊢
  have h3 := h2.trans (pres_writeRaw hI g2 ['\n'] (h2.1.trans hg))
  generalize g2.writeRaw ['\n'] = g3 at h3 ⊢
  have h4 := h3.trans (pres_comment hI g3 (.one "Default feed rate".toList) true (h3.1.trans hg))
  generalize g3.comment (.one "Default feed rate".toList) = g4 at h4 ⊢
  have h5 := h4.trans (pres_feedRate hI g4 g4.cfg.xyfeed (h4.1.trans hg))
  generalize g4.feedRate g4.cfg.xyfeed = r at h5 ⊢
  obtain ⟨g5, e⟩ := r
  cases e
  · exact (h5.trans (pres_writeRaw hI _ _ (h5.1.trans hg))).2 (List.prefix_refl _)
  · exact h5.2 (List.prefix_refl _)

theorem initGcode_comments {env : TEnv K} {doc : DocInfo K} {o : TOpts K} {g : Gen K} (h : initGcode env doc o = .ok g) :
    g.cfg.showComments = true ∧ g.cfg.headerComments = headerTexts env o ∧ g.text = [] := by
  obtain ⟨af, u, k, n, -, -, -, -, -, rfl⟩ := initGcode_spec h
  have : ∀ g : Gen K, (finishGen o n g).cfg.showComments = g.cfg.showComments ∧ (finishGen o n g).cfg.headerComments = g.cfg.headerComments ∧
      (finishGen o n g).out = g.out := by
    intro g
    unfold finishGen
    dsimp only [Gen.setTolerance, Gen.setOutputPrecision]
    split
    · exact ⟨rfl, rfl, rfl⟩
    · unfold Gen.setPathBlending
      dsimp only
      split <;> exact ⟨rfl, rfl, rfl⟩
  obtain ⟨h1, h2, h3⟩ := this { (newGen env o af) with cfg.gcUnit := u, cfg.unitScale := k }
  unfold Gen.text
  rw [h1, h2, h3]
  unfold newGen
  rw [foldl_headers]
  exact ⟨rfl, rfl, rfl⟩

/-- **C184**, header: the program is empty, because the paths could not be prepared, or its text starts with a percent sign and these comments: the date, the
machine, the version of tcnc, the settings if they are asked for, and the number of paths that are cut. -/
theorem C184_header (env : TEnv K) (doc : DocInfo K) (e : Env K) (o : TOpts K) (l : List (Path K)) (ds : List K) (s : Cam K) (h : Generated env doc e o l ds s) :
    (s.gen.text = [] ∧ ∃ er, prepare e (initCam o) o.tolerance l = .error er ∧ s.err = some er) ∨
    ∃ paths, prepare e (initCam o) o.tolerance l = .ok paths ∧
      "%\n".toList ++ ((headerNotes e.today env.version (if o.writeSettings then some o.settings else none) paths.length).map noteLine).flatten ++ "\n".toList <+:
        s.gen.text := by
  obtain ⟨g, hg, hgen⟩ := h
  obtain ⟨hc, hh, ht⟩ := initGcode_comments hg
  have htol : g.cfg.tol = o.tolerance := by
    obtain ⟨_, _, _, _, -, -, -, -, -, -, -, -, -, -, -, -, -, -, h, -⟩ := initGcode_fields hg
    exact h
  have key : ∀ paths : List (Path K), Reach CamCall ((Cam.init g).start e paths) s →
      "%\n".toList ++ ((headerNotes e.today env.version (if o.writeSettings then some o.settings else none) paths.length).map noteLine).flatten ++ "\n".toList <+:
        s.gen.text := by
    rintro paths ⟨cs, hext, hcs⟩
    have hst : Reach CamCall (((Cam.init g).emit (.addHeaderComment (.many [[], "Path count: ".toList ++ natDigits paths.length]))).emit (.header e.today .none))
        ((Cam.init g).start e paths) := reach_emit _ _ rfl
    obtain ⟨cs', hext', hcs'⟩ := hst.trans ⟨cs, hext, hcs⟩
    have hgen' := hext'.gen
    rw [emit_eq (s := Cam.init g) rfl, emit_eq (by rfl)] at hgen'
    dsimp only [Cam.init] at hgen'
    rw [hgen']
    generalize hp : CommentArg.many [[], "Path count: ".toList ++ natDigits paths.length] = cm
    have hfront := headerFront_text (g.addHeaderComment cm) hc (by
      intro a ha
      have : a ∈ g.cfg.headerComments ++ [cm] := ha
      rw [hh, headerTexts] at this
      simp only [List.mem_append, List.mem_singleton] at this
      rcases this with (rfl | this) | rfl
      · simp
      · split at this
        · simp only [List.mem_cons, List.mem_map] at this
          rcases this with rfl | ⟨x, -, rfl⟩ <;> simp
        · cases this
      · rw [← hp]; simp) e.today
    refine List.IsPrefix.trans ?_ ((text_grows (header_front (g.addHeaderComment cm) e.today .none)).trans (text_grows (out_run cs' _)))
    rw [hfront]
    have e1 : (g.addHeaderComment cm).text = [] := ht
    have e2 : (g.addHeaderComment cm).cfg.headerComments = headerTexts env o ++ [cm] := by rw [← hh]; rfl
    rw [e1, e2, ← hp]
    have : ([headerDashes, "Creation date: ".toList ++ e.today, "Target machine: LinuxCNC, version 2.4+".toList] ++
        (headerTexts env o ++ [CommentArg.many [[], "Path count: ".toList ++ natDigits paths.length]]).flatMap argLines ++ [headerDashes]) =
        headerNotes e.today env.version (if o.writeSettings then some o.settings else none) paths.length := by
      unfold headerTexts headerNotes
      cases o.writeSettings
      · simp [argLines]
      · have : ∀ l : List Str, (l.map CommentArg.one).flatMap argLines = l := by
          intro l
          induction l with
          | nil => rfl
          | cons a l ih => rw [List.map_cons, List.flatMap_cons, ih]; rfl
        simp [argLines, this]
    rw [this, List.nil_append]
  cases hgen with
  | fails er hp => exact .inl ⟨by unfold Cam.raise; exact ht, er, by rw [← htol]; exact hp, rfl⟩
  | noStart paths hp he => exact .inr ⟨paths, by rw [← htol]; exact hp, key paths (Reach.refl _ _)⟩
  | runs paths ds s1 hp hst hloop =>
    exact .inr ⟨paths, by rw [← htol]; exact hp, key paths ((reach_depthLoop hloop).trans (reach_finish _ _))⟩

end

/-! ## The settings -/

/-- Specification: two values are the same for Python. -/
def SameValue : OptVal ℝ → OptVal ℝ → Prop
  | .none, .none => True
  | .text a, .text b => a = b
  | .int a, .int b => a = b
  | .num a, .num b => a = b
  | .int a, .num b => (a : ℝ) = b
  | .num a, .int b => a = (b : ℝ)
  | .bool a, .bool b => a = b
  | _, _ => False

/-- Specification: an option has a value other than its default. -/
def Changed (vals : List (Str × OptVal ℝ)) (o : OptSpec ℝ) (v : OptVal ℝ) : Prop := optLookup vals o.name = some v ∧ v ≠ .none ∧ ¬ SameValue v o.default

/-- Specification: the lines list the options that have changed, in the order of the table. -/
inductive Listed (str : OptVal ℝ → Str) (vals : List (Str × OptVal ℝ)) : List (OptSpec ℝ) → List Str → Prop
  | nil : Listed str vals [] []
  | skip (o : OptSpec ℝ) (specs : List (OptSpec ℝ)) (lines : List Str) : (∀ v, ¬ Changed vals o v) → Listed str vals specs lines → Listed str vals (o :: specs) lines
  | take (o : OptSpec ℝ) (v : OptVal ℝ) (specs : List (OptSpec ℝ)) (lines : List Str) : Changed vals o v → Listed str vals specs lines →
      Listed str vals (o :: specs) (("--".toList ++ o.name ++ " = ".toList ++ str v) :: lines)

theorem same_iff (a b : OptVal ℝ) : a.same b = true ↔ SameValue a b := by
  cases a <;> cases b <;> simp [OptVal.same, SameValue]

theorem shown_dest (name : Str) (h : '_' ∉ name) : shownName (destOf name) = name := by
  unfold shownName destOf
  induction name with
  | nil => rfl
  | cons c r ih =>
    simp only [List.mem_cons, not_or] at h
    simp only [List.map_cons, List.cons.injEq]
    refine ⟨?_, ih h.2⟩
    by_cases hc : c = '-'
    · subst hc; rfl
    · rw [if_neg hc, if_neg (fun hh => h.1 hh.symm)]

theorem settingLine_spec (str : OptVal ℝ → Str) (vals : List (Str × OptVal ℝ)) (o : OptSpec ℝ) (h : '_' ∉ o.name) :
    (settingLine str vals o = none ∧ ∀ v, ¬ Changed vals o v) ∨
    ∃ v, Changed vals o v ∧ settingLine str vals o = some ("--".toList ++ o.name ++ " = ".toList ++ str v) := by
  unfold settingLine
  cases hl : optLookup vals o.name with
  | none => exact .inl ⟨rfl, fun v hv => by rw [hv.1] at hl; cases hl⟩
  | some v =>
    have key : v ≠ .none → ((if v.same o.default then none else some ("--".toList ++ shownName (destOf o.name) ++ " = ".toList ++ str v)) = none ∧ ∀ v, ¬ Changed vals o v) ∨
        ∃ w, Changed vals o w ∧ (if v.same o.default then none else some ("--".toList ++ shownName (destOf o.name) ++ " = ".toList ++ str v)) =
          some ("--".toList ++ o.name ++ " = ".toList ++ str w) := by
      intro hv
      by_cases hs : v.same o.default = true
      · left
        rw [if_pos hs]
        refine ⟨rfl, fun w hw => ?_⟩
        have := hw.1.symm.trans hl
        injection this with this
        subst this
        exact hw.2.2 ((same_iff _ _).1 hs)
      · right
        rw [if_neg hs, shown_dest _ h]
        exact ⟨v, ⟨hl, hv, fun hh => hs ((same_iff _ _).2 hh)⟩, rfl⟩
    cases v with
    | none =>
      refine .inl ⟨rfl, fun w hw => ?_⟩
      have := hw.1.symm.trans hl
      injection this with this
      exact hw.2.1 this
    | text s => exact key (by simp)
    | int s => exact key (by simp)
    | num s => exact key (by simp)
    | bool s => exact key (by simp)

/-- **C184**, settings: for every table of options (with names without underscores) and all values, the lines list exactly the options whose values are not
their defaults, in the order of the table, with name and value. -/
theorem C184_listed (str : OptVal ℝ → Str) (vals : List (Str × OptVal ℝ)) (specs : List (OptSpec ℝ)) (h : ∀ o ∈ specs, '_' ∉ o.name) (lines : List Str) :
    settingLines str vals specs = lines ↔ Listed str vals specs lines := by
  have uniq : ∀ {o v w}, Changed vals o v → Changed vals o w → v = w := by
    intro o v w h1 h2
    have := h1.1.symm.trans h2.1
    injection this
  unfold settingLines
  induction specs generalizing lines with
  | nil =>
    constructor
    · rintro rfl; exact .nil
    · intro h; cases h; rfl
  | cons o specs ih =>
    have ih := ih (fun a ha => h a (by simp [ha]))
    rcases settingLine_spec str vals o (h o (by simp)) with ⟨hn, hc⟩ | ⟨v, hc, hs⟩
    · rw [List.filterMap_cons_none hn]
      constructor
      · intro hl; exact .skip _ _ _ hc ((ih _).1 hl)
      · intro hl
        cases hl with
        | skip _ _ _ _ h2 => exact (ih _).2 h2
        | take _ v _ _ h1 h2 => exact absurd h1 (hc v)
    · rw [List.filterMap_cons_some hs]
      constructor
      · rintro rfl; exact .take _ v _ _ hc ((ih _).1 rfl)
      · intro hl
        cases hl with
        | skip _ _ _ h1 h2 => exact absurd hc (h1 v)
        | take _ w _ _ h1 h2 => rw [uniq hc h1, (ih _).2 h2]

theorem tcnc_underscores : ∀ o ∈ (tcncOptions : List (OptSpec ℝ)), '_' ∉ o.name := by
  have h : (tcncOptions : List (OptSpec ℝ)).map (·.name) = (tcncOptions : List (OptSpec ℚ)).map (·.name) := rfl
  have k : ∀ n ∈ (tcncOptions : List (OptSpec ℚ)).map (·.name), '_' ∉ n := by decide +kernel
  intro o ho
  exact k _ (h ▸ List.mem_map_of_mem (f := (·.name)) ho)

/-- **C184**, settings of tcnc: what is listed are the changed options of tcnc, with the angular feed that is used. -/
theorem C184_tcnc (str : OptVal ℝ → Str) (vals : List (Str × OptVal ℝ)) (o : TOpts ℝ) (lines : List Str) (h : tcncSettings str vals o = .ok lines) :
    ∃ ws, Listed str ws tcncOptions lines ∧ (∀ name, name ≠ "a-feed".toList ∨ o.aFeedMatch = false → optLookup ws name = optLookup vals name) ∧
      (o.aFeedMatch = true → optLookup ws "a-feed".toList = some (.num (o.xyFeed / o.toolWidth / 2 * (180 / Real.pi)))) := by
  unfold tcncSettings at h
  cases ha : angularFeed o with
  | error e => rw [ha] at h; cases h
  | ok af =>
    rw [ha] at h
    have h : settingLines str (valuesShown vals o af) tcncOptions = lines := by injection h
    refine ⟨valuesShown vals o af, (C184_listed str _ _ tcnc_underscores _).1 h, ?_, ?_⟩
    · intro name hn
      unfold valuesShown
      split
      · rename_i hm
        rw [optLookup_set, if_neg]
        rintro rfl
        rcases hn with hn | hn
        · exact hn rfl
        · rw [hm] at hn; cases hn
      · rfl
    · intro hm
      unfold valuesShown
      rw [if_pos hm, optLookup_set, if_pos rfl]
      unfold angularFeed at ha
      rw [if_pos hm] at ha
      split at ha
      · cases ha
      · injection ha with ha
        rw [← ha]
        simp only [degrees, real_div, real_ofInt, real_mul, real_pi]
        norm_num
        ring

/-- Specification: Python's `str` writes what is read back as the same value. -/
structure Faithful (rd : Reader ℝ) (str : OptVal ℝ → Str) : Prop where
  text : ∀ s, str (.text s) = s
  num : ∀ x, rd.float (str (.num x)) = some x
  int : ∀ n, rd.int (str (.int n)) = some n
  yes : str (.bool true) = "True".toList
  no : str (.bool false) = "False".toList

/-- Specification: options that are neither angles nor lengths. -/
def NoUnit (o : OptSpec ℝ) : Prop := o.type ≠ .degrees ∧ o.type ≠ .docunits

theorem means_str (rd : Reader ℝ) (str : OptVal ℝ → Str) (hf : Faithful rd str) (unit unit' : ℝ) (o : OptSpec ℝ) (ho : NoUnit o) (t : Str) (v : OptVal ℝ)
    (h : Means rd unit o.type t v) : Means rd unit' o.type (str v) v ∧ ∀ w, Means rd unit' o.type (str v) w → w = v := by
  obtain ⟨name, ty, dflt⟩ := o
  have sy : SaysYes "True".toList := by unfold SaysYes; decide
  have sn : SaysNo "False".toList := by unfold SaysNo; decide
  cases ty
  · have h : v = .text t := h
    subst h
    rw [hf.text]
    exact ⟨rfl, fun w hw => hw⟩
  · obtain ⟨n, -, rfl⟩ := h
    refine ⟨⟨n, hf.int n, rfl⟩, ?_⟩
    rintro w ⟨m, hm, rfl⟩
    rw [hf.int] at hm
    injection hm with hm
    rw [hm]
  · obtain ⟨n, -, rfl⟩ := h
    refine ⟨⟨n, hf.num n, rfl⟩, ?_⟩
    rintro w ⟨m, hm, rfl⟩
    rw [hf.num] at hm
    injection hm with hm
    rw [hm]
  · rcases h with ⟨-, rfl⟩ | ⟨-, rfl⟩
    · rw [hf.yes]
      refine ⟨.inl ⟨sy, rfl⟩, ?_⟩
      rintro w (⟨-, h⟩ | ⟨h, -⟩)
      · exact h
      · exact absurd h (yes_no _ sy)
    · rw [hf.no]
      refine ⟨.inr ⟨sn, rfl⟩, ?_⟩
      rintro w (⟨h, -⟩ | ⟨-, h⟩)
      · exact absurd sn (yes_no _ h)
      · exact h
  · exact absurd rfl ho.1
  · exact absurd rfl ho.2

theorem sameValue_refl (v : OptVal ℝ) : SameValue v v := by cases v <;> simp [SameValue]

theorem sameValue_symm {v w : OptVal ℝ} (h : SameValue v w) : SameValue w v := by
  cases v <;> cases w <;> simp only [SameValue] at h ⊢ <;> first | exact h.symm | exact h.elim

/-- **C184**, the part about giving the settings again that holds: the settings that are listed, given as options, give every option that is neither an angle nor
a length the value it had.  Missing: angles and lengths, see the refutation. -/
theorem C184_again_partial (rd : Reader ℝ) (str : OptVal ℝ → Str) (hf : Faithful rd str) (num : Svg.NumEnv ℝ) (doc : DocInfo ℝ) (u : Svg.LenUnit)
    (order : List (Str × ℝ) → List (Str × ℝ)) (hord : ∀ l, (order l).Perm l) (specs : List (OptSpec ℝ)) (hs : SpecsOk rd specs)
    (given : List (Str × Str)) (vs : List (Str × OptVal ℝ)) (h : optionValues rd num (some doc) u.name order specs given = .ok vs)
    (again : List (Str × Str)) (ha : ∀ g, g ∈ again ↔ ∃ o ∈ specs, NoUnit o ∧ ∃ v, Changed vs o v ∧ g = (o.name, str v)) :
    ∃ ws, optionValues rd num (some doc) u.name order specs again = .ok ws ∧
      ∀ o ∈ specs, NoUnit o → ∃ v w, optLookup vs o.name = some v ∧ optLookup ws o.name = some w ∧ SameValue w v := by
  obtain ⟨hv, -⟩ := C174_values_partial rd specs num doc u order hord hs.1 given vs h
  -- where the values come from
  have src : ∀ o ∈ specs, (∃ t v, Means rd (u.size doc.conv.em doc.conv.ex * doc.viewScale) o.type t v ∧ optLookup vs o.name = some v) ∨
      ((∀ s, o.default ≠ .text s) ∧ optLookup vs o.name = some o.default) := by
    intro o ho
    cases hl : lastGiven given o.name with
    | some t => obtain ⟨v, h1, h2⟩ := (hv o ho).1 t hl; exact .inl ⟨t, v, h1, h2⟩
    | none =>
      by_cases hd : ∃ s, o.default = .text s
      · obtain ⟨s, hd⟩ := hd
        obtain ⟨v, h1, h2⟩ := ((hv o ho).2 hl).1 s hd
        exact .inl ⟨s, v, h1, h2⟩
      · push Not at hd
        exact .inr ⟨hd, ((hv o ho).2 hl).2 hd⟩
  have chg : ∀ o ∈ specs, ∀ v, Changed vs o v → ∃ t, Means rd (u.size doc.conv.em doc.conv.ex * doc.viewScale) o.type t v := by
    intro o ho v hc
    rcases src o ho with ⟨t, w, h1, h2⟩ | ⟨h1, h2⟩
    · have := hc.1.symm.trans h2
      injection this with this
      exact ⟨t, this ▸ h1⟩
    · have := hc.1.symm.trans h2
      injection this with this
      exact absurd (this ▸ sameValue_refl v) hc.2.2
  obtain ⟨ws, hw⟩ := C174_accepted rd specs num doc u order hord hs again (by
    intro g hg
    obtain ⟨o, ho, hp, v, hc, rfl⟩ := (ha g).1 hg
    obtain ⟨t, ht⟩ := chg o ho v hc
    exact ⟨o, ho, rfl, v, (means_str rd str hf _ _ o hp t v ht).1⟩)
  refine ⟨ws, hw, ?_⟩
  obtain ⟨hv', -⟩ := C174_values_partial rd specs num doc u order hord hs.1 again ws hw
  intro o ho hp
  have lastMem : ∀ t, lastGiven again o.name = some t → (o.name, t) ∈ again := by
    intro t ht
    have := List.mem_of_getLast? ht
    obtain ⟨g, hg, rfl⟩ := List.mem_map.1 this
    rw [List.mem_filter] at hg
    have : g.1 = o.name := by simpa using hg.2
    rw [← this]
    exact hg.1
  by_cases hc : ∃ v, Changed vs o v
  · obtain ⟨v, hc⟩ := hc
    obtain ⟨t, ht⟩ := chg o ho v hc
    have hin : (o.name, str v) ∈ again := (ha _).2 ⟨o, ho, hp, v, hc, rfl⟩
    have hlast : lastGiven again o.name = some (str v) := by
      cases hl : lastGiven again o.name with
      | none =>
        unfold lastGiven at hl
        rw [List.getLast?_eq_none_iff, List.map_eq_nil_iff, List.filter_eq_nil_iff] at hl
        exact absurd (hl _ hin) (by simp)
      | some t' =>
        obtain ⟨o', ho', -, v', hc', he⟩ := (ha _).1 (lastMem t' hl)
        have e1 : o.name = o'.name := congrArg Prod.fst he
        have e2 : t' = str v' := congrArg Prod.snd he
        have := hs.1
        have : o = o' := List.inj_on_of_nodup_map hs.1 ho ho' e1
        subst this
        have := hc.1.symm.trans hc'.1
        injection this with this
        rw [e2, this]
    obtain ⟨w, h1, h2⟩ := (hv' o ho).1 _ hlast
    have := (means_str rd str hf _ _ o hp t v ht).2 w h1
    subst this
    exact ⟨w, w, hc.1, h2, sameValue_refl w⟩
  · have hnone : lastGiven again o.name = none := by
      cases hl : lastGiven again o.name with
      | none => rfl
      | some t' =>
        obtain ⟨o', ho', -, v', hc', he⟩ := (ha _).1 (lastMem t' hl)
        have e1 : o.name = o'.name := congrArg Prod.fst he
        have : o = o' := List.inj_on_of_nodup_map hs.1 ho ho' e1
        subst this
        exact absurd ⟨v', hc'⟩ hc
    have ⟨n1, n2⟩ := (hv' o ho).2 hnone
    rcases src o ho with ⟨t, v, h1, h2⟩ | ⟨h1, h2⟩
    · have hsame : SameValue v o.default := by
        by_contra hh
        refine hc ⟨v, h2, ?_, hh⟩
        rintro rfl
        obtain ⟨name, ty, dflt⟩ := o
        cases ty <;> simp [Means] at h1
      by_cases hd : ∃ s, o.default = .text s
      · obtain ⟨s, hd⟩ := hd
        have hvt : v = .text s := by
          rw [hd] at hsame
          cases v <;> simp only [SameValue] at hsame
          rw [hsame]
        subst hvt
        have hty : o.type = .string := by
          obtain ⟨name, ty, dflt⟩ := o
          cases ty <;> simp [Means] at h1 ⊢
        obtain ⟨w, m1, m2⟩ := n1 s hd
        rw [hty] at m1
        have m1 : w = .text s := m1
        subst m1
        exact ⟨_, _, h2, m2, sameValue_refl _⟩
      · push Not at hd
        exact ⟨_, _, h2, n2 hd, sameValue_symm hsame⟩
    · exact ⟨_, _, h2, n2 h1, sameValue_refl _⟩

/-- A part of **C184** that fails: an angle is listed in radians and a length in user units, so that giving the listed text again gives another value. -/
theorem C184_refuted_again (rd : Reader ℝ) (str : OptVal ℝ → Str) (hf : Faithful rd str) (num : Svg.NumEnv ℝ) (doc : DocInfo ℝ) (u : Svg.LenUnit)
    (order : List (Str × ℝ) → List (Str × ℝ)) (hord : ∀ l, (order l).Perm l) (specs : List (OptSpec ℝ)) (hs : SpecsOk rd specs)
    (o : OptSpec ℝ) (ho : o ∈ specs) (hty : o.type = .degrees ∨ o.type = .docunits) (hu : u.size doc.conv.em doc.conv.ex * doc.viewScale ≠ 1) (x : ℝ) (t : Str)
    (hx : rd.float t = some x) (given : List (Str × Str)) (hg : lastGiven given o.name = some t)
    (vs : List (Str × OptVal ℝ)) (h : optionValues rd num (some doc) u.name order specs given = .ok vs) :
    ∃ y, optLookup vs o.name = some (.num y) ∧ ∃ ws, optionValues rd num (some doc) u.name order specs [(o.name, str (.num y))] = .ok ws ∧
      ∃ z, optLookup ws o.name = some (.num z) ∧ (y ≠ 0 → z ≠ y) := by
  obtain ⟨hv, -⟩ := C174_values_partial rd specs num doc u order hord hs.1 given vs h
  obtain ⟨v, m1, l1⟩ := (hv o ho).1 t hg
  have hpi := Real.pi_pos
  have hpi4 := Real.pi_le_four
  have again : ∀ y, ∃ ws, optionValues rd num (some doc) u.name order specs [(o.name, str (.num y))] = .ok ws ∧
      ∃ w, Means rd (u.size doc.conv.em doc.conv.ex * doc.viewScale) o.type (str (.num y)) w ∧ optLookup ws o.name = some w := by
    intro y
    obtain ⟨ws, hw⟩ := C174_accepted rd specs num doc u order hord hs [(o.name, str (.num y))] (by
      intro g hg
      rw [List.mem_singleton] at hg
      subst hg
      refine ⟨o, ho, rfl, ?_⟩
      unfold Understood
      rcases hty with hty | hty <;> rw [hty] <;> exact ⟨_, y, hf.num y, rfl⟩)
    obtain ⟨hv', -⟩ := C174_values_partial rd specs num doc u order hord hs.1 _ ws hw
    exact ⟨ws, hw, (hv' o ho).1 _ (by simp [lastGiven])⟩
  rcases hty with hty | hty <;> rw [hty] at m1
  · obtain ⟨x', hx', rfl⟩ := m1
    refine ⟨_, l1, ?_⟩
    obtain ⟨ws, hw, w, m2, l2⟩ := again (x' * Real.pi / 180)
    rw [hty] at m2
    obtain ⟨x2, hx2, rfl⟩ := m2
    rw [hf.num] at hx2
    injection hx2 with hx2
    refine ⟨ws, hw, _, l2, ?_⟩
    rw [← hx2]
    intro hy hz
    apply hy
    have : (x' * Real.pi / 180) * (Real.pi / 180 - 1) = 0 := by linarith
    rcases mul_eq_zero.1 this with h0 | h0
    · exact h0
    · exfalso; linarith
  · obtain ⟨x', hx', rfl⟩ := m1
    refine ⟨_, l1, ?_⟩
    obtain ⟨ws, hw, w, m2, l2⟩ := again (x' * (u.size doc.conv.em doc.conv.ex * doc.viewScale))
    rw [hty] at m2
    obtain ⟨x2, hx2, rfl⟩ := m2
    rw [hf.num] at hx2
    injection hx2 with hx2
    refine ⟨ws, hw, _, l2, ?_⟩
    rw [← hx2]
    intro hy hz
    exact hu (mul_left_cancel₀ hy (by rw [mul_one]; exact hz))

/-- An option with a text as its default is a text, with one exception. -/
def textKind (s : OptSpec ℝ) : Bool :=
  decide (s.name = "blend-tolerance".toList) ||
    match s.default with
    | .text _ => decide (s.type = .string)
    | _ => true

theorem filterMap_key (key line : Str) (l : List Str) :
    l.filterMap (fun n => if n = key then some line else none) = (l.filter (fun n => decide (n = key))).map fun _ => line := by
  induction l with
  | nil => rfl
  | cons a l ih => by_cases h : a = key <;> simp [h, ih]

/-- A part of **C184** that fails: when nothing is given, an option is listed although it has its default: the default of `--blend-tolerance` is a
text, its value a number. -/
theorem C184_refuted_default (rd : Reader ℝ) (str : OptVal ℝ → Str) (h0 : rd.float "0".toList = some 0) (num : Svg.NumEnv ℝ) (doc : DocInfo ℝ) (u : Svg.LenUnit)
    (order : List (Str × ℝ) → List (Str × ℝ)) (hord : ∀ l, (order l).Perm l) (vs : List (Str × OptVal ℝ))
    (h : optionValues rd num (some doc) u.name order (tcncOptions ++ commonOptions) [] = .ok vs) (o : TOpts ℝ) (hm : o.aFeedMatch = false) :
    tcncSettings str vs o = .ok ["--blend-tolerance = ".toList ++ str (.num 0)] := by
  obtain ⟨hv, -⟩ := C174_values_partial rd _ num doc u order hord tcnc_names [] vs h
  have ha : angularFeed o = .ok o.aFeed := by unfold angularFeed; rw [hm]; rfl
  have hkinds : ∀ s ∈ (tcncOptions : List (OptSpec ℝ)), (∀ t, s.default ≠ .text t) ∧ s.name ≠ "blend-tolerance".toList ∨
      (s.type = .string ∧ s.name ≠ "blend-tolerance".toList) ∨ s = ⟨"blend-tolerance".toList, .float, .text "0".toList⟩ := by
    intro s hs
    have hall : (tcncOptions : List (OptSpec ℝ)).all textKind = true := by decide +kernel
    have hk := List.all_eq_true.1 hall s hs
    have hb : (⟨"blend-tolerance".toList, .float, .text "0".toList⟩ : OptSpec ℝ) ∈ (tcncOptions : List (OptSpec ℝ)) := by
      unfold tcncOptions; simp only [List.mem_cons, true_or, or_true]
    have hnd : ((tcncOptions : List (OptSpec ℝ)).map (·.name)).Nodup := by
      have := tcnc_names
      rw [List.map_append] at this
      exact this.of_append_left
    by_cases hn : s.name = "blend-tolerance".toList
    · refine .inr (.inr (List.inj_on_of_nodup_map hnd hs hb hn))
    · unfold textKind at hk
      rw [decide_eq_false hn, Bool.false_or] at hk
      cases hd : s.default with
      | text t =>
        rw [hd] at hk
        exact .inr (.inl ⟨by simpa using hk, hn⟩)
      | none => exact .inl ⟨by simp, hn⟩
      | int n => exact .inl ⟨by simp, hn⟩
      | num n => exact .inl ⟨by simp, hn⟩
      | bool n => exact .inl ⟨by simp, hn⟩
  unfold tcncSettings
  rw [ha]
  show Except.ok _ = _
  unfold valuesShown
  rw [hm]
  simp only [Bool.false_eq_true, if_false]
  congr 1
  unfold settingLines
  have hline : ∀ s ∈ (tcncOptions : List (OptSpec ℝ)), settingLine str vs s =
      if s.name = "blend-tolerance".toList then some ("--blend-tolerance = ".toList ++ str (.num 0)) else none := by
    intro s hs
    have hs' : s ∈ (tcncOptions ++ commonOptions : List (OptSpec ℝ)) := by simp [hs]
    obtain ⟨n1, n2⟩ := (hv s hs').2 rfl
    rcases hkinds s hs with ⟨hd, hne⟩ | ⟨hty, hne⟩ | he
    · rw [if_neg hne]
      have := n2 hd
      rcases settingLine_spec str vs s (tcnc_underscores s hs) with ⟨hn, -⟩ | ⟨v, hc, -⟩
      · exact hn
      · have := hc.1.symm.trans this
        injection this with this
        exact absurd (this ▸ sameValue_refl v) hc.2.2
    · rw [if_neg hne]
      rcases settingLine_spec str vs s (tcnc_underscores s hs) with ⟨hn, -⟩ | ⟨v, hc, -⟩
      · exact hn
      · by_cases hd : ∃ t, s.default = .text t
        · obtain ⟨t, hd⟩ := hd
          obtain ⟨w, m, l⟩ := n1 t hd
          rw [hty] at m
          have m : w = .text t := m
          have := hc.1.symm.trans l
          injection this with this
          exact absurd (by rw [this, m, hd]; exact sameValue_refl _) hc.2.2
        · push Not at hd
          have := hc.1.symm.trans (n2 hd)
          injection this with this
          exact absurd (this ▸ sameValue_refl v) hc.2.2
    · have hname : s.name = "blend-tolerance".toList := by rw [he]
      have hdef : s.default = .text "0".toList := by rw [he]
      have hty : s.type = .float := by rw [he]
      rw [if_pos hname]
      obtain ⟨w, m, l⟩ := n1 _ hdef
      rw [hty] at m
      obtain ⟨x, hx, rfl⟩ := m
      rw [h0] at hx
      injection hx with hx
      subst hx
      have hpre : "--".toList ++ "blend-tolerance".toList ++ " = ".toList = "--blend-tolerance = ".toList := by decide +kernel
      rcases settingLine_spec str vs s (tcnc_underscores s hs) with ⟨-, hc⟩ | ⟨v, hc, hl⟩
      · exact absurd ⟨l, by simp, by rw [hdef]; exact id⟩ (hc _)
      · have := hc.1.symm.trans l
        injection this with this
        rw [hl, this, hname, ← hpre]
  rw [List.filterMap_congr hline]
  generalize "--blend-tolerance = ".toList ++ str (.num 0) = line
  have hsplit : ∀ l : List (OptSpec ℝ), l.filterMap (fun s => if s.name = "blend-tolerance".toList then some line else none) =
      (l.map (·.name)).filterMap (fun n => if n = "blend-tolerance".toList then some line else none) := by
    intro l; rw [List.filterMap_map]; rfl
  have hq : (tcncOptions : List (OptSpec ℝ)).map (·.name) = (tcncOptions : List (OptSpec ℚ)).map (·.name) := rfl
  rw [hsplit, hq]
  rw [filterMap_key]
  have : ((tcncOptions : List (OptSpec ℚ)).map (·.name)).filter (fun n => decide (n = "blend-tolerance".toList)) = ["blend-tolerance".toList] := by decide +kernel
  rw [this]
  rfl

/-- Non-vacuity: settings given and listed. -/
example :
    let rd : Reader ℚ := ⟨fun s => (Svg.exactQ.float s).toOption, fun _ => none⟩
    let vals := optionValues rd Svg.exactQ (some ⟨"in".toList, Svg.Conv.default, 1⟩) "in".toList id (tcncOptions ++ commonOptions)
      [("tool-width".toList, "2".toList), ("z-depth".toList, "-0.125".toList), ("blend-tolerance".toList, "1".toList), ("spindle-mode".toList, "path".toList)]
    let str : OptVal ℚ → Str := fun v => match v with
      | .text s => s
      | .num x => PyFloat.fmt 1 x
      | _ => "?".toList
    (vals.toOption.map fun vs => (settingLines str vs tcncOptions).map String.ofList) =
      some ["--blend-tolerance = 1.0", "--tool-width = 180.0", "--spindle-mode = path"] := by decide +kernel

end Verif.Cam
