import Verif.Cam.Props15

/-!
# C105: waits
-/

set_option linter.unusedSectionVars false

namespace Verif.Cam
open Verif PyFloat PyTrig Geom GCode

section
variable {K : Type} [PyTrig K]

/-- Specification: a line that makes the machine wait. -/
def isDwell (b : Block K) : Prop := b.cmd = "G04".toList

/-- The waits of a configuration. -/
def DwellOf (c : Cfg K) (b : Block K) : Prop :=
  isDwell b → ∃ ms, (ms = c.waitUp ∨ ms = c.waitDown ∨ (c.spAuto = true ∧ (ms = c.spWaitOn ∨ ms = c.spWaitOff))) ∧ (zero <. ms) = true ∧
    b = ⟨"G04".toList, [⟨['P'], .num 4 (ms /. ofInt 1000)⟩]⟩

/-- Specification: each line that starts the spindle is followed at once by the lines `q`. -/
def StartsFollowed (q l : List (Block K)) : Prop := ∀ pre b post, l = pre ++ b :: post → startsSpindle b → q <+: post

theorem StartsFollowed.append {q l m : List (Block K)} (h : StartsFollowed q l) (h' : StartsFollowed q m) : StartsFollowed q (l ++ m) := by
  intro pre b post hp hb
  rcases List.append_eq_append_iff.1 hp with ⟨as, h1, h2⟩ | ⟨as, h1, h2⟩
  · exact h' as b post h2 hb
  · cases as with
    | nil =>
      simp only [List.nil_append] at h2
      exact h' [] b post h2.symm hb
    | cons b' as =>
      simp only [List.cons_append, List.cons.injEq] at h2
      obtain ⟨rfl, h2⟩ := h2
      rw [h2]
      exact (h pre b as h1 hb).trans (List.prefix_append _ _)

theorem startsFollowed_of_none {q l : List (Block K)} (h : ∀ b ∈ l, ¬ startsSpindle b) : StartsFollowed q l := by
  intro pre b post hp hb
  exact absurd hb (h b (by rw [hp]; simp))

/-- Lines without dwell and without spindle start. -/
def Inert (b : Block K) : Prop := ¬ isDwell b ∧ ¬ startsSpindle b

theorem inert_of_cmd {cmd : Str} (ws : List (Word K)) (h : cmd ∈ ["G00".toList, "G01".toList, "G02".toList, "G03".toList, "G17".toList, "G20".toList,
    "G21".toList, "G90".toList, "G40".toList, "G49".toList, "G64".toList, "G61".toList, "G92.1".toList, "M5".toList, "M2".toList, []]) :
    Inert (⟨cmd, ws⟩ : Block K) := by
  unfold Inert isDwell startsSpindle
  dsimp only
  simp only [List.mem_cons, List.not_mem_nil, or_false] at h
  rcases h with rfl | rfl | rfl | rfl | rfl | rfl | rfl | rfl | rfl | rfl | rfl | rfl | rfl | rfl | rfl | rfl <;> decide

/-- One wait. -/
theorem dwellBlocks_of (c : Cfg K) (ms : K) (h : ms = c.waitUp ∨ ms = c.waitDown ∨ (c.spAuto = true ∧ (ms = c.spWaitOn ∨ ms = c.spWaitOff))) :
    (∀ b ∈ dwellBlocks ms, DwellOf c b) ∧ ∀ b ∈ dwellBlocks ms, ¬ startsSpindle b := by
  unfold dwellBlocks
  split
  · rename_i hp
    constructor
    · intro b hb
      simp only [List.mem_singleton] at hb
      exact fun _ => ⟨ms, h, hp, hb⟩
    · intro b hb
      simp only [List.mem_singleton] at hb
      subst hb
      unfold startsSpindle; dsimp only; decide
  · exact ⟨by simp, by simp⟩

/-- What a call adds: dwells of the configured lengths only, and spindle starts followed by the warm-up. -/
theorem cam_dwells (g : Gen K) (c : Call K) (hc : CamCall c) (hm : g.cfg.axisMap = fun _ => none) (hu : g.cfg.altUp = none)
    (hd : g.cfg.altDown = none) :
    ∃ l, Adds g (g.step c).1 l ∧ (∀ b ∈ l, DwellOf g.cfg b) ∧ StartsFollowed (dwellBlocks g.cfg.spWaitOn) l := by
  have all : ∀ {g' : Gen K} {l}, Adds g g' l → (∀ b ∈ l, Inert b) →
      ∃ l, Adds g g' l ∧ (∀ b ∈ l, DwellOf g.cfg b) ∧ StartsFollowed (dwellBlocks g.cfg.spWaitOn) l := by
    intro g' l h1 h2
    exact ⟨l, h1, fun b hb hx => absurd hx (h2 b hb).1, startsFollowed_of_none fun b hb => (h2 b hb).2⟩
  have hup : ∀ (r : Bool) (com : Option Str),
      ∃ l, Adds g (g.toolUp r none com) l ∧ (∀ b ∈ l, DwellOf g.cfg b) ∧ ∀ b ∈ l, ¬ startsSpindle b := by
    intro r com
    refine ⟨_, adds_toolUp g r none com _ (adds_toolUpMove g r com hu), ?_⟩
    have h1 : Inert (⟨if r then "G00".toList else "G01".toList,
      [⟨(g.cfg.axisMap 'Z').getD ['Z'], .num g.cfg.digits (specImage g.cfg 'Z' g.cfg.zsafe)⟩]⟩ : Block K) :=
      inert_of_cmd _ (by cases r <;> simp)
    have h2 : (∀ b ∈ afterRetract g.cfg none, DwellOf g.cfg b) ∧ ∀ b ∈ afterRetract g.cfg none, ¬ startsSpindle b := by
      unfold afterRetract
      have hw := dwellBlocks_of g.cfg g.cfg.waitUp (.inl rfl)
      by_cases hs : g.cfg.spAuto = true
      · have hw' := dwellBlocks_of g.cfg g.cfg.spWaitOff (.inr (.inr ⟨hs, .inr rfl⟩))
        have h5 : Inert (⟨"M5".toList, []⟩ : Block K) := inert_of_cmd _ (by simp)
        rw [if_pos hs]
        constructor <;> intro b hb <;> rcases List.mem_append.1 hb with hb | hb
        · rcases List.mem_cons.1 hb with rfl | hb
          · exact fun hx => absurd hx h5.1
          · exact hw'.1 b hb
        · exact hw.1 b hb
        · rcases List.mem_cons.1 hb with rfl | hb
          · exact h5.2
          · exact hw'.2 b hb
        · exact hw.2 b hb
      · rw [if_neg hs]
        exact hw
    constructor <;> intro b hb <;> rcases List.mem_append.1 hb with hb | hb
    · rw [List.mem_singleton.1 hb]; exact fun hx => absurd hx h1.1
    · exact h2.1 b hb
    · rw [List.mem_singleton.1 hb]; exact h1.2
    · exact h2.2 b hb
  have hcmd : ∀ (g : Gen K) (cmd : Str) (kw : Kw K), canonicalCmd cmd ∈ ["G00".toList, "G01".toList, "G02".toList, "G03".toList] →
      ∃ l, Adds g (g.command cmd kw) l ∧ ∀ b ∈ l, Inert b := by
    intro g cmd kw h
    rcases adds_command g cmd kw with h1 | ⟨ws, h1⟩
    · exact ⟨_, h1, by simp⟩
    · refine ⟨_, h1, ?_⟩
      intro b hb
      simp only [List.mem_singleton] at hb
      subst hb
      refine inert_of_cmd _ ?_
      simp only [List.mem_cons, List.not_mem_nil, or_false] at h
      rcases h with h | h | h | h <;> rw [h] <;> simp
  cases c <;> (try exact hc.elim) <;> dsimp only [Gen.step]
  case rapidMove x y z a com =>
    unfold Gen.rapidMove
    dsimp only
    have h1 : ∃ l, Adds g (if g.rapidLifts then g.toolUp else g) l ∧ (∀ b ∈ l, DwellOf g.cfg b) ∧ ∀ b ∈ l, ¬ startsSpindle b := by
      split
      · exact hup true none
      · exact ⟨[], adds_refl _, by simp, by simp⟩
    obtain ⟨l1, ha, hh, hn⟩ := h1
    generalize (if g.rapidLifts then g.toolUp else g) = g1 at ha ⊢
    obtain ⟨l2, h2, hi⟩ := hcmd g1 "G00".toList { args := kwOf [('X', x), ('Y', y), ('Z', some (maxZ g1.cfg.zsafe z)), ('A', a)], comment := com }
      (by decide)
    refine ⟨_, ha.trans h2, ?_, (startsFollowed_of_none hn).append (startsFollowed_of_none fun b hb => (hi b hb).2)⟩
    intro b hb
    rcases List.mem_append.1 hb with hb | hb
    · exact hh b hb
    · exact fun hx => absurd hx (hi b hb).1
  case feed x y z a f com =>
    unfold Gen.feed
    split
    · exact all (adds_refl g) (by simp)
    · obtain ⟨l, h1, h2⟩ := hcmd g "G01".toList _ (by decide)
      exact all h1 h2
  case feedArc cw x y i j a z f com =>
    unfold Gen.feedArc
    split
    · dsimp only
      split
      · exact all (adds_refl g) (by simp)
      · obtain ⟨l, h1, h2⟩ := hcmd g (if cw then "G02".toList else "G03".toList) _ (by cases cw <;> decide)
        exact all h1 h2
    · exact all (adds_refl g) (by simp)
  case toolUp r w com =>
    have hw : w = none := hc
    subst hw
    obtain ⟨l, h1, h2, h3⟩ := hup r com
    exact ⟨l, h1, h2, startsFollowed_of_none h3⟩
  case toolDown z f w com =>
    have hw : w = none := hc
    subst hw
    unfold Gen.toolDown
    dsimp only
    have h1 : ∃ l, Adds g (if g.cfg.spAuto then g.spindleOn else g) l ∧ (∀ b ∈ l, DwellOf g.cfg b) ∧
        StartsFollowed (dwellBlocks g.cfg.spWaitOn) l := by
      split
      · rename_i hs
        have hw := dwellBlocks_of g.cfg g.cfg.spWaitOn (.inr (.inr ⟨hs, .inl rfl⟩))
        refine ⟨_, adds_spindleOn g none none none none, ?_, ?_⟩
        · intro b hb
          simp only [List.mem_cons] at hb
          rcases hb with rfl | hb
          · intro hx
            unfold isDwell at hx
            dsimp only at hx
            split at hx <;> exact absurd hx (by decide)
          · exact hw.1 b hb
        · intro pre b post hp hb
          cases pre with
          | nil =>
            simp only [List.nil_append, List.cons.injEq] at hp
            rw [← hp.2]
            exact List.prefix_refl _
          | cons b' pre =>
            simp only [List.cons_append, List.cons.injEq] at hp
            have hp2 : dwellBlocks g.cfg.spWaitOn = pre ++ b :: post := hp.2
            exact absurd hb (hw.2 b (by rw [hp2]; simp))
      · exact ⟨[], adds_refl _, by simp, startsFollowed_of_none (by simp)⟩
    have hc1 : (if g.cfg.spAuto then g.spindleOn else g).cfg = g.cfg := by
      split
      · exact spindleOn_cfg _ _ _ _ _
      · rfl
    obtain ⟨l1, ha, hh, hsp⟩ := h1
    generalize (if g.cfg.spAuto then g.spindleOn else g) = g1 at ha hc1 ⊢
    have hmv : g1.toolDownMove z (f.getD g.cfg.zfeed) com = g1.command "G01".toList
        { args := kwOf [('Z', some z), ('F', some (f.getD g.cfg.zfeed))], comment := com } := by
      unfold Gen.toolDownMove; rw [hc1, hd]
    rw [hmv]
    obtain ⟨l2, h2, hh2⟩ := hcmd g1 "G01".toList { args := kwOf [('Z', some z), ('F', some (f.getD g.cfg.zfeed))], comment := com } (by decide)
    generalize g1.command "G01".toList { args := kwOf [('Z', some z), ('F', some (f.getD g.cfg.zfeed))], comment := com } = g2 at h2 ⊢
    have h3 := adds_wait ({ g2 with isToolUp := false } : Gen K) g.cfg.waitDown
    have hw := dwellBlocks_of g.cfg g.cfg.waitDown (.inr (.inl rfl))
    refine ⟨_, (ha.trans (b := g1) (c := { g2 with isToolUp := false }) h2).trans h3, ?_,
      (hsp.append (startsFollowed_of_none fun b hb => (hh2 b hb).2)).append (startsFollowed_of_none hw.2)⟩
    intro b hb
    rcases List.mem_append.1 hb with hb | hb
    · rcases List.mem_append.1 hb with hb | hb
      · exact hh b hb
      · exact fun hx => absurd hx (hh2 b hb).1
    · exact hw.1 b hb
  case comment cc s => exact all (l := []) (by unfold Adds; rw [(quiet_comment g cc s).blocks]; simp) (by simp)
  case header t com =>
    refine all ((C20_header_lines g t com).trans (List.append_assoc _ _ _ |>.trans (List.append_assoc _ _ _))) ?_
    intro b hb
    simp only [List.mem_append, List.mem_cons, List.not_mem_nil, or_false] at hb
    rcases hb with (rfl | rfl | rfl | rfl | rfl) | hb | hb
    · exact inert_of_cmd _ (by simp)
    · split <;> exact inert_of_cmd _ (by simp)
    · exact inert_of_cmd _ (by simp)
    · exact inert_of_cmd _ (by simp)
    · exact inert_of_cmd _ (by simp)
    · unfold blendBlocks at hb
      repeat' split at hb
      all_goals simp only [List.mem_singleton, List.not_mem_nil, List.mem_cons, or_false] at hb
      all_goals subst hb; exact inert_of_cmd _ (by simp)
    · split at hb
      · simp only [List.mem_singleton] at hb; subst hb; exact inert_of_cmd _ (by simp)
      · simp at hb
  case footer =>
    refine all ((C20_footer g).1.trans (List.append_assoc _ _ _)) ?_
    intro b hb
    simp only [List.mem_append] at hb
    rcases hb with hb | hb
    · split at hb
      · simp only [List.mem_singleton] at hb; subst hb; exact inert_of_cmd _ (by simp)
      · simp at hb
    · simp only [List.mem_singleton] at hb; subst hb; exact inert_of_cmd _ (by simp)
  case addHeaderComment t => exact all (l := []) (by simp [Adds, Gen.addHeaderComment]) (by simp)

/-- The same for whole histories. -/
theorem run_dwells (cs : List (Call K)) (hcs : ∀ c ∈ cs, CamCall c) (g : Gen K) (hf : Fresh g) :
    (∀ b ∈ blocksOf (g.run cs).out, DwellOf g.cfg b) ∧ StartsFollowed (dwellBlocks g.cfg.spWaitOn) (blocksOf (g.run cs).out) := by
  induction cs using List.reverseRecOn with
  | nil =>
    rw [show g.run [] = g from rfl, hf.out]
    exact ⟨by simp [blocksOf], startsFollowed_of_none (by simp [blocksOf])⟩
  | append_singleton cs c ih =>
    have hcs' : ∀ c' ∈ cs, CamCall c' := fun c' h' => hcs c' (by simp [h'])
    obtain ⟨ih1, ih2⟩ := ih hcs'
    have hinv := trackInv_run cs g (trackInv_fresh g hf) fun c h => (hcs' c h).trackable
    obtain ⟨hc, hcfg⟩ := cam_run_cfg cs hcs' g
    obtain ⟨l, hadd, h1, h2⟩ := cam_dwells (g.run cs) c (hcs c (by simp)) hinv.map hinv.altUp hinv.altDown
    have h1' : ∀ b ∈ l, DwellOf g.cfg b := by intro b hb; have := h1 b hb; rw [hcfg] at this; exact this
    have h2' : StartsFollowed (dwellBlocks g.cfg.spWaitOn) l := by rw [hcfg] at h2; exact h2
    rw [run_append, show ((g.run cs).run [c]) = ((g.run cs).step c).1 from rfl, show blocksOf ((g.run cs).step c).1.out = _ from hadd]
    refine ⟨?_, ih2.append h2'⟩
    intro b hb
    rcases List.mem_append.1 hb with hb | hb
    · exact ih1 b hb
    · exact h1' b hb

/-- The waits that the settings determine. -/
theorem initGcode_waits {env : TEnv K} {doc : DocInfo K} {o : TOpts K} {g : Gen K} (h : initGcode env doc o = .ok g) :
    g.cfg.spWaitOff = zero := by
  obtain ⟨af, u, k, n, -, -, -, -, -, rfl⟩ := initGcode_spec h
  have : ∀ g : Gen K, (finishGen o n g).cfg.spWaitOff = g.cfg.spWaitOff := by
    intro g
    unfold finishGen
    dsimp only [Gen.setTolerance, Gen.setOutputPrecision]
    split
    · rfl
    · unfold Gen.setPathBlending
      dsimp only
      split <;> rfl
  rw [this]
  show (newGen env o af).cfg.spWaitOff = zero
  unfold newGen
  rw [foldl_headers]
  rfl

end

section
variable {K : Type} [Field K] [LinearOrder K] [IsStrictOrderedRing K] [PyTrig K] [ExactFloat K]

/-- **C105**, the part that fails: the option "wait for tool up/down" is in seconds according to the dialog and the help text, but (with the
spindle not switched per path) every wait in the program is a thousandth of it, and there is one. -/
theorem C105_refuted_tool_wait (env : TEnv K) (doc : DocInfo K) (e : Env K) (o : TOpts K) (l : List (Path K)) (ds : List K) (s : Cam K)
    (h : Generated env doc e o l ds s) (herr : s.err = none) (hm : o.spindleMode ≠ "path".toList) (hw : 0 < o.toolWait) :
    (∃ b ∈ blocksOf s.gen.out, isDwell b) ∧
    ∀ b ∈ blocksOf s.gen.out, isDwell b → b = ⟨"G04".toList, [⟨['P'], .num 4 (o.toolWait / 1000)⟩]⟩ ∧ o.toolWait / 1000 ≠ o.toolWait := by
  obtain ⟨g, hg, hgen⟩ := h
  obtain ⟨af, u, k, n, -, -, -, -, -, -, -, -, -, -, -, hwd, hwu, -, -, -, -⟩ := initGcode_fields hg
  have hsp : g.cfg.spAuto = false := by rw [(initGcode_zsafe hg).2]; simpa using hm
  have hf := initGcode_fresh hg
  constructor
  · -- the last retraction waits
    cases hgen with
    | fails er h => exact absurd herr (raise_err _ _)
    | noStart paths h h' => rw [herr] at h'; simp at h'
    | runs paths ds s1 hp hst hl =>
      have h1 := finish_err herr
      obtain ⟨cs, hext, hcs⟩ := (reach_start e (Cam.init g) paths).trans (reach_depthLoop hl)
      have hg1 : s1.gen = g.run cs := hext.2
      have ht1 : TrackInv s1.gen := by rw [hg1]; exact trackInv_run cs _ (trackInv_fresh g hf) fun c hc => (hcs c hc).trackable
      have hfin : (s1.finish (initCam o)).gen = ((s1.gen.step (.toolUp true none none)).1.step .footer).1 := by
        unfold Cam.finish
        rw [show (initCam o).homeWhenDone = false from rfl]
        dsimp only
        rw [if_neg (by simp), emit_eq h1]
        rw [emit_eq (by rfl)]
      obtain ⟨hc', hcfg⟩ := cam_run_cfg cs hcs g
      have hup := adds_toolUp s1.gen true none none _ (adds_toolUpMove s1.gen true none ht1.altUp)
      refine ⟨⟨"G04".toList, [⟨['P'], .num 4 (o.toolWait /. ofInt 1000)⟩]⟩, ?_, rfl⟩
      rw [hfin, show blocksOf ((s1.gen.step (.toolUp true none none)).1.step .footer).1.out = _ from
        ((C20_footer (s1.gen.step (.toolUp true none none)).1).1)]
      refine List.mem_append_left _ (List.mem_append_left _ ?_)
      rw [show blocksOf (s1.gen.step (.toolUp true none none)).1.out = _ from hup]
      refine List.mem_append_right _ (List.mem_append_right _ ?_)
      unfold afterRetract
      refine List.mem_append_right _ ?_
      have hw1 : s1.gen.cfg.waitUp = o.toolWait := by rw [hg1, hcfg]; exact hwu
      unfold dwellBlocks
      rw [Option.getD_none, hw1, if_pos (by py; exact hw)]
      simp
  · obtain ⟨cs, hext, hcs⟩ := generate_calls hgen
    have hs : s.gen = g.run cs := hext.2
    intro b hb hd
    rw [hs] at hb
    obtain ⟨ms, hms, -, rfl⟩ := (run_dwells cs hcs g hf).1 b hb hd
    rw [hsp, hwd, hwu] at hms
    have : ms = o.toolWait := by rcases hms with h | h | ⟨h, -⟩ <;> first | exact h | cases h
    subst this
    refine ⟨?_, ?_⟩
    · have : (o.toolWait /. ofInt 1000 : K) = o.toolWait / 1000 := by py
      rw [this]
    · intro hx
      rw [div_eq_iff (by norm_num)] at hx
      linarith

/-- **C105**, what holds: with the spindle started before every path, each start of the spindle is followed at once by a wait of exactly the
requested number of seconds.  Missing: the wait for the tool (`C105_refuted_tool_wait`). -/
theorem C105_warm_up_partial (env : TEnv K) (doc : DocInfo K) (e : Env K) (o : TOpts K) (l : List (Path K)) (ds : List K) (s : Cam K)
    (h : Generated env doc e o l ds s) (hw : 0 < o.spindleWaitOn) :
    StartsFollowed [⟨"G04".toList, [⟨['P'], .num 4 o.spindleWaitOn⟩]⟩] (blocksOf s.gen.out) := by
  obtain ⟨g, hg, hgen⟩ := h
  obtain ⟨af, u, k, n, -, -, -, -, -, -, -, -, -, -, -, -, -, hon, -, -, -⟩ := initGcode_fields hg
  obtain ⟨cs, hext, hcs⟩ := generate_calls hgen
  have hs : s.gen = g.run cs := hext.2
  have := (run_dwells cs hcs g (initGcode_fresh hg)).2
  rw [hs]
  have e1 : dwellBlocks g.cfg.spWaitOn = [⟨"G04".toList, [⟨['P'], .num 4 o.spindleWaitOn⟩]⟩] := by
    unfold dwellBlocks
    have h1 : (zero <. g.cfg.spWaitOn) = true := by rw [hon]; py; push_cast; linarith
    have h2 : (g.cfg.spWaitOn /. ofInt 1000 : K) = o.spindleWaitOn := by rw [hon]; py; push_cast; field_simp
    rw [if_pos h1, h2]
  rw [← e1]
  exact this

end

end Verif.Cam
