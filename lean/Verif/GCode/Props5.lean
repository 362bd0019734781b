import Verif.GCode.Props4

/-!
# Properties C06 and C12 of the G-code generator
-/

set_option linter.unusedSectionVars false

namespace Verif.GCode
open Verif PyFloat

variable {K : Type} [PyFloat K]

/-! ## C12 Automatic spindle -/

theorem word_spindle (m : Machine K) (w : Word K) : (m.word w).spindle = m.spindle := by
  unfold Machine.word
  split
  · rfl
  · split
    · rfl
    · split <;> rfl

theorem words_spindle (ws : List (Word K)) (m : Machine K) : (ws.foldl Machine.word m).spindle = m.spindle := by
  induction ws generalizing m with
  | nil => rfl
  | cons w ws ih => rw [List.foldl_cons, ih, word_spindle]

theorem exec_motion_spindle (m : Machine K) (b : Block K) (h : isMotion b.cmd = true) : (m.exec b).spindle = m.spindle := by
  unfold Machine.exec
  simp only [h, Bool.true_or, if_true]
  exact words_spindle _ _

/-- Spindle effect of a block that is not a motion, as a function of its command word. -/
def spindleAfter (cmd : Str) (on : Bool) : Bool :=
  if cmd ∈ ["M3".toList, "M03".toList, "M4".toList, "M04".toList] then true
  else if cmd ∈ ["M5".toList, "M05".toList, "M2".toList, "M02".toList] then false else on

theorem exec_spindle (m : Machine K) (cmd : Str) (ws)
    (h : (isMotion cmd || decide (cmd = "G92".toList) || cmd.isEmpty) = false) :
    (m.exec ⟨cmd, ws⟩).spindle = spindleAfter cmd m.spindle := by
  unfold Machine.exec spindleAfter
  simp only [h, Bool.false_eq_true, if_false]
  split <;> split <;> try rfl
  all_goals (split <;> rfl)

theorem exec_off (m : Machine K) (ws) : (m.exec ⟨"M5".toList, ws⟩).spindle = false := by
  rw [exec_spindle _ _ _ (by decide)]; cases m.spindle <;> decide

theorem exec_on (m : Machine K) (cw : Bool) (ws) :
    (m.exec ⟨if cw then "M3".toList else "M4".toList, ws⟩).spindle = true := by
  rw [exec_spindle _ _ _ (by cases cw <;> decide)]; cases cw <;> cases m.spindle <;> decide

theorem exec_dwell (m : Machine K) (ws) : (m.exec ⟨"G04".toList, ws⟩).spindle = m.spindle := by
  rw [exec_spindle _ _ _ (by decide)]; cases m.spindle <;> decide

theorem run_dwell (m : Machine K) (ms : K) : (m.run (dwellBlocks ms)).spindle = m.spindle := by
  unfold dwellBlocks
  split
  · exact exec_dwell m [⟨['P'], .num 4 (ms /. ofInt 1000)⟩]
  · rfl

theorem command_spindle (g : Gen K) (cmd : Str) (kw : Kw K) (h : canonicalCmd cmd ∈ motionGroup) :
    (g.command cmd kw).machine.spindle = g.machine.spindle := by
  rcases adds_command g cmd kw with ha | ⟨ws, ha⟩
  · rw [ha.machine]; rfl
  · rw [ha.machine]
    exact exec_motion_spindle _ _ (canonical_motion cmd h).1

theorem toolUp_spindle (g : Gen K) (r w c) (ha : g.cfg.altUp = none) (hs : g.cfg.spAuto = true) :
    (g.toolUp r w c).machine.spindle = false := by
  rw [(adds_toolUp g r w c _ (adds_toolUpMove g r c ha)).machine]
  rw [run_append]
  unfold afterRetract
  rw [hs]
  simp only [if_true, run_append, run_dwell]
  rw [show (⟨"M5".toList, []⟩ :: dwellBlocks g.cfg.spWaitOff : List (Block K))
    = [⟨"M5".toList, []⟩] ++ dwellBlocks g.cfg.spWaitOff from rfl, run_append, run_dwell]
  exact exec_off _ []

/-- **C12 (tool_down)**.  From any state, with `spindle_auto` and no alternate command, the lines `tool_down` adds are: the
spindle-on line (`M3`/`M4`) first, then only dwells, at most one `G01` plunge, and dwells; the spindle ends commanded
on. -/
theorem C12_tool_down (g : Gen K) (z : K) (f w : Option K) (c : Option Str) (ha : g.cfg.altDown = none)
    (hs : g.cfg.spAuto = true) :
    (∃ d1 mv d2, blocksOf (g.toolDown z f w c).out = blocksOf g.out ++
        (⟨if g.cfg.spCw then "M3".toList else "M4".toList, [⟨['S'], .int (trunc g.cfg.spSpeed)⟩]⟩ :: d1 ++ mv ++ d2) ∧
        (∀ b ∈ d1 ++ d2, b.cmd = "G04".toList) ∧ mv.length ≤ 1 ∧ (∀ b ∈ mv, b.cmd = "G01".toList)) ∧
    (g.toolDown z f w c).machine.spindle = true := by
  have hdw : ∀ ms : K, ∀ b ∈ dwellBlocks ms, b.cmd = "G04".toList := by
    intro ms b hb; unfold dwellBlocks at hb
    split at hb
    · rw [List.mem_singleton.mp hb]
    · simp at hb
  have h1 := adds_spindleOn g none none none none
  have hc1 : g.spindleOn.cfg = g.cfg := spindleOn_cfg _ _ _ _ _
  have hmain : ∃ mv, Adds g (g.toolDown z f w c)
      ((⟨if g.cfg.spCw then "M3".toList else "M4".toList, [⟨['S'], .int (trunc g.cfg.spSpeed)⟩]⟩ ::
        dwellBlocks g.cfg.spWaitOn) ++ mv ++ dwellBlocks (w.getD g.cfg.waitDown)) ∧ mv.length ≤ 1 ∧
      (∀ b ∈ mv, b.cmd = "G01".toList) := by
    unfold Gen.toolDown
    dsimp only
    rw [hs]
    simp only [if_true]
    generalize g.spindleOn = g1 at h1 hc1 ⊢
    have hm : g1.toolDownMove z (f.getD g.cfg.zfeed) c = g1.command "G01".toList
        { args := kwOf [('Z', some z), ('F', some (f.getD g.cfg.zfeed))], comment := c } := by
      unfold Gen.toolDownMove; rw [hc1, ha]
    rw [hm]
    have h2 := adds_command g1 "G01".toList
        { args := kwOf [('Z', some z), ('F', some (f.getD g.cfg.zfeed))], comment := c }
    generalize g1.command "G01".toList
        { args := kwOf [('Z', some z), ('F', some (f.getD g.cfg.zfeed))], comment := c } = g2 at h2 ⊢
    have h3 := adds_wait ({ g2 with isToolUp := false } : Gen K) (w.getD g.cfg.waitDown)
    rcases h2 with h2 | ⟨ws, h2⟩
    · exact ⟨[], (h1.trans (b := g1) (c := { g2 with isToolUp := false }) h2).trans h3, by simp, by simp⟩
    · refine ⟨_, (h1.trans (b := g1) (c := { g2 with isToolUp := false }) h2).trans h3, by simp, ?_⟩
      intro b hb
      simp at hb
      rw [hb]
      show canonicalCmd "G01".toList = _
      decide
  obtain ⟨mv, hadd, hlen, hcmd⟩ := hmain
  refine ⟨⟨_, mv, _, hadd, ?_, hlen, hcmd⟩, ?_⟩
  · intro b hb
    rcases List.mem_append.mp hb with hb | hb <;> exact hdw _ b hb
  · rw [hadd.machine, run_append, run_append, run_dwell]
    have hmv : ∀ m : Machine K, (m.run mv).spindle = m.spindle := by
      intro m
      clear hadd
      induction mv generalizing m with
      | nil => rfl
      | cons b l ih =>
        show ((m.exec b).run l).spindle = _
        rw [ih (by simp at hlen; simp [hlen]) (fun b' hb' => hcmd b' (by simp [hb']))]
        exact exec_motion_spindle _ _ (by rw [hcmd b (by simp)]; decide)
    rw [hmv]
    rw [show (⟨if g.cfg.spCw then "M3".toList else "M4".toList, [⟨['S'], .int (trunc g.cfg.spSpeed)⟩]⟩ ::
        dwellBlocks g.cfg.spWaitOn : List (Block K)) = [⟨if g.cfg.spCw then "M3".toList else "M4".toList,
          [⟨['S'], .int (trunc g.cfg.spSpeed)⟩]⟩] ++ dwellBlocks g.cfg.spWaitOn from rfl, run_append, run_dwell]
    exact exec_on _ _ _

/-- Calls considered by the history form of C12. -/
def SpindleHistory : Call K → Prop
  | .rapidMove .. | .feed .. | .feedArc .. | .toolUp .. | .toolDown .. | .dwell .. | .pause .. | .comment .. => True
  | _ => False

/-- The Z height the generator reports is unknown or below the safe height. -/
def belowSafe (g : Gen K) : Bool :=
  match g.position ['Z'] with
  | .ok (some z) => z <. g.cfg.zsafe
  | _ => true

/-- Specification: `tool_down` turns the spindle on, `tool_up` and a `rapid_move` issued below the safe height (it retracts)
turn it off, every other call leaves it. -/
def spindleNext (g : Gen K) (c : Call K) (on : Bool) : Bool :=
  match c with
  | .toolDown .. => true
  | .toolUp .. => false
  | .rapidMove .. => if belowSafe g then false else on
  | _ => on

/-- The spindle state a history should leave. -/
def spindleSpec (g : Gen K) : List (Call K) → Bool → Bool
  | [], on => on
  | c :: cs, on => spindleSpec (g.step c).1 cs (spindleNext g c on)

theorem command_up (g : Gen K) (cmd : Str) (kw : Kw K) (h : (g.command cmd kw).isToolUp = true) : g.isToolUp = true := by
  have hup : ∀ nz, g.upAfter nz = true → g.isToolUp = true := by
    intro nz h
    unfold Gen.upAfter at h
    split at h
    · split at h
      · cases h
      · exact h
    · exact h
  unfold Gen.command at h
  split at h
  · exact h
  · rw [gcodeCore_eq] at h
    split at h
    · exact hup _ h
    · split at h
      · exact hup _ h
      · exact hup _ h

theorem dwell_up (g : Gen K) (ms c) : (g.dwell ms c).isToolUp = g.isToolUp := by
  unfold Gen.dwell; split <;> rfl

theorem toolDown_up (g : Gen K) (z f w c) : (g.toolDown z f w c).isToolUp = false := by
  unfold Gen.toolDown
  dsimp only
  split
  · rw [dwell_up]
  · rfl

theorem spindle_step (g : Gen K) (c : Call K) (hc : SpindleHistory c) (hau : g.cfg.altUp = none)
    (had : g.cfg.altDown = none) (hs : g.cfg.spAuto = true) (hinv : g.isToolUp = true → g.machine.spindle = false) :
    (g.step c).1.machine.spindle = spindleNext g c g.machine.spindle ∧
    ((g.step c).1.isToolUp = true → (g.step c).1.machine.spindle = false) := by
  cases c <;> dsimp only [SpindleHistory] at hc <;> dsimp only [Gen.step, spindleNext]
  case rapidMove x y z a com =>
    have hb : belowSafe g = (match g.last 'Z' with | none => true | some zp => zp <. g.cfg.zsafe) := by
      have e1 : upperS ['Z'] = ['Z'] ∧ 'Z' ∈ orderedParams := by decide
      unfold belowSafe
      simp only [Gen.position, e1.1, e1.2, if_true]
      cases g.last 'Z' <;> rfl
    have hl : g.rapidLifts = (belowSafe g || g.isToolUp) := by rw [hb]; rfl
    unfold Gen.rapidMove
    dsimp only
    have h1 : (if g.rapidLifts then g.toolUp else g).machine.spindle
        = if belowSafe g then false else g.machine.spindle := by
      rw [hl]
      cases hbs : belowSafe g
      · cases hu : g.isToolUp
        · simp
        · simp [toolUp_spindle _ _ _ _ hau hs, hinv hu]
      · simp [toolUp_spindle _ _ _ _ hau hs]
    have h2 : (if g.rapidLifts then g.toolUp else g).isToolUp = true →
        (if g.rapidLifts then g.toolUp else g).machine.spindle = false := by
      split
      · intro _; exact toolUp_spindle _ _ _ _ hau hs
      · exact hinv
    generalize (if g.rapidLifts then g.toolUp else g) = g1 at h1 h2 ⊢
    refine ⟨?_, ?_⟩
    · rw [command_spindle _ _ _ (by decide), h1]
    · intro h
      rw [command_spindle _ _ _ (by decide)]
      exact h2 (command_up _ _ _ h)
  case feed x y z a f com =>
    unfold Gen.feed
    split
    · exact ⟨rfl, hinv⟩
    · refine ⟨command_spindle _ _ _ (by decide), ?_⟩
      intro h
      rw [command_spindle _ _ _ (by decide)]
      exact hinv (command_up _ _ _ h)
  case feedArc cw x y i j a z f com =>
    unfold Gen.feedArc
    split
    · dsimp only
      split
      · exact ⟨rfl, hinv⟩
      · have hcan : canonicalCmd (if cw then "G02".toList else "G03".toList) ∈ motionGroup := by cases cw <;> decide
        refine ⟨command_spindle _ _ _ hcan, ?_⟩
        intro h
        rw [command_spindle _ _ _ hcan]
        exact hinv (command_up _ _ _ h)
    · exact ⟨rfl, hinv⟩
  case toolUp r w com =>
    have := toolUp_spindle g r w com hau hs
    exact ⟨this, fun _ => this⟩
  case toolDown z f w com =>
    refine ⟨(C12_tool_down g z f w com had hs).2, ?_⟩
    rw [toolDown_up]; intro h; cases h
  case dwell ms com =>
    have : (g.dwell ms com).machine.spindle = g.machine.spindle := by
      rw [(adds_dwell g ms com).machine]; exact run_dwell _ _
    rw [this, dwell_up]; exact ⟨rfl, hinv⟩
  case pause b com =>
    have h1 : (g.pause b com).machine.spindle = g.machine.spindle := by
      unfold Gen.pause
      rcases adds_command g (if b then "M1".toList else "M0".toList) { comment := com } with ha | ⟨ws, ha⟩
      · rw [ha.machine]; rfl
      · rw [ha.machine]
        show (g.machine.exec _).spindle = _
        rw [exec_spindle _ _ _ (by cases b <;> decide)]
        cases b <;> cases g.machine.spindle <;> decide
    rw [h1]
    exact ⟨rfl, fun h => hinv (command_up _ _ _ h)⟩
  case comment cc s =>
    have hq := quiet_comment g cc s
    rw [hq.machine, hq.up]; exact ⟨rfl, hinv⟩

/-- **C12 (history)**.  With `spindle_auto` on and no alternate tool commands, after every history of moves, tool and idle
calls on a new generator the commanded spindle state is `on` exactly when the last of `tool_down`, `tool_up` and
retracting `rapid_move` was a `tool_down`. -/
theorem C12_spindle_history (g0 : Gen K) (h0 : g0.out = []) (hup : g0.isToolUp = false) (hau : g0.cfg.altUp = none)
    (had : g0.cfg.altDown = none) (hs : g0.cfg.spAuto = true) (calls : List (Call K))
    (hc : ∀ c ∈ calls, SpindleHistory c) :
    (g0.run calls).machine.spindle = spindleSpec g0 calls false := by
  have key : ∀ (calls : List (Call K)) (g : Gen K), g.cfg = g0.cfg → (∀ c ∈ calls, SpindleHistory c) →
      (g.isToolUp = true → g.machine.spindle = false) →
      (g.run calls).machine.spindle = spindleSpec g calls g.machine.spindle := by
    intro calls
    induction calls with
    | nil => intro g _ _ _; rfl
    | cons c cs ih =>
      intro g hg hcs hinv
      have hcc := hcs c (by simp)
      have hst := spindle_step g c hcc (by rw [hg]; exact hau) (by rw [hg]; exact had) (by rw [hg]; exact hs) hinv
      have hcfg : (g.step c).1.cfg = g0.cfg := by
        rw [step_cfg g c (by cases c <;> first | rfl | exact hcc.elim)]; exact hg
      show ((g.step c).1.run cs).machine.spindle = spindleSpec g (c :: cs) g.machine.spindle
      rw [ih (g.step c).1 hcfg (fun c' h' => hcs c' (by simp [h'])) hst.2, hst.1]
      rfl
  have hm : g0.machine.spindle = false := by simp [Gen.machine, h0, blocksOf, Machine.run, Machine.off]
  have := key calls g0 rfl hc (by intro h; rw [hup] at h; cases h)
  rw [this, hm]

/-- A generator with automatic spindle. -/
def demoSpindle : Gen ℚ := demo.run [.setSpindleDefaults 1000 true 0 0 true]

/-- Non-vacuity: on after `tool_down`, off after the next `rapid_move`. -/
example : demoSpindle.out = [] ∧ demoSpindle.isToolUp = false ∧ demoSpindle.cfg.altUp = none ∧
    demoSpindle.cfg.altDown = none ∧ demoSpindle.cfg.spAuto = true ∧
    spindleSpec demoSpindle [.rapidMove (some 1) (some 1) none none none, .toolDown (-1) none none none] false = true ∧
    spindleSpec demoSpindle [.rapidMove (some 1) (some 1) none none none, .toolDown (-1) none none none,
      .rapidMove (some 1) (some 1) none none none] false = false := by
  decide +kernel

/-! ## C06 Feed rate in force -/

/-- A word named `F`. -/
def hasF (b : Block K) : Prop := ∃ w ∈ b.words, w.name = ['F']

/-- Commanded feed `w` is the reported feed rate `l`, raw or mapped through a scale/offset configured for F. -/
def FeedIs (c : Cfg K) (w l : K) : Prop := w = l ∨ w = l *. (c.axisScale 'F').getD one +. (c.axisOffset 'F').getD zero

/-- The controller's feed rate is the reported one. -/
def FeedAgree (g : Gen K) : Prop :=
  match g.last 'F' with
  | none => g.machine.feed = none
  | some l => ∃ w, g.machine.feed = some w ∧ FeedIs g.cfg w l

theorem word_feed (m : Machine K) (w : Word K) (h : w.name ≠ ['F']) : (m.word w).feed = m.feed := by
  unfold Machine.word
  split
  · rfl
  · rename_i c v hr
    split
    · rfl
    · split
      · rename_i hF
        exfalso; apply h
        unfold Word.read at hr
        split at hr
        · rename_i hn _
          simp only [Option.some.injEq, Prod.mk.injEq] at hr
          rw [hn, hr.1, hF]
        · cases hr
      · rfl

theorem exec_noF (m : Machine K) (b : Block K) (h : ¬ hasF b) : (m.exec b).feed = m.feed := by
  have hw : ∀ (ws : List (Word K)) (m : Machine K), (∀ w ∈ ws, w.name ≠ ['F']) → (ws.foldl Machine.word m).feed = m.feed := by
    intro ws
    induction ws with
    | nil => intro m _; rfl
    | cons w ws ih =>
      intro m hh
      rw [List.foldl_cons, ih _ (fun w' h' => hh w' (by simp [h'])), word_feed _ _ (hh w (by simp))]
  unfold Machine.exec
  split
  · exact hw _ _ (fun w hw' hn => h ⟨w, hw', hn⟩)
  · dsimp only
    split
    · split
      · rfl
      · split <;> rfl
    · split
      · rfl
      · split <;> rfl

theorem run_noF (l : List (Block K)) (m : Machine K) (h : ∀ b ∈ l, ¬ hasF b) : (m.run l).feed = m.feed := by
  induction l generalizing m with
  | nil => rfl
  | cons b l ih =>
    show ((m.exec b).run l).feed = _
    rw [ih _ (fun b' h' => h b' (by simp [h'])), exec_noF _ _ (h b (by simp))]

/-- One call either writes no F word, or leaves the controller's feed rate equal to the reported one. -/
def FeedStep (g g' : Gen K) : Prop := (∃ l, Adds g g' l ∧ ∀ b ∈ l, ¬ hasF b) ∨ FeedAgree g'

theorem feedAgree_congr {g g' : Gen K} (h1 : g'.last 'F' = g.last 'F') (h2 : g'.machine.feed = g.machine.feed)
    (h3 : g'.cfg = g.cfg) (h : FeedAgree g) : FeedAgree g' := by
  unfold FeedAgree at *; rw [h1, h2, h3]; exact h

/-- Appending lines without F words, tracked F unchanged. -/
theorem FeedStep.then {a b c : Gen K} (h : FeedStep a b) {l} (hb : Adds b c l) (hl : ∀ x ∈ l, ¬ hasF x)
    (hF : c.last 'F' = b.last 'F') (hc : c.cfg = b.cfg) : FeedStep a c := by
  rcases h with ⟨l0, h0, hn⟩ | h
  · refine .inl ⟨l0 ++ l, h0.trans hb, ?_⟩
    intro x hx
    rcases List.mem_append.mp hx with hx | hx
    · exact hn x hx
    · exact hl x hx
  · exact .inr (feedAgree_congr hF (by rw [hb.machine, run_noF _ _ hl]) hc h)

/-- Prepending lines without F words. -/
theorem FeedStep.after {a b c : Gen K} {l} (ha : Adds a b l) (hl : ∀ x ∈ l, ¬ hasF x) (h : FeedStep b c) : FeedStep a c := by
  rcases h with ⟨l0, h0, hn⟩ | h
  · refine .inl ⟨l ++ l0, ha.trans h0, ?_⟩
    intro x hx
    rcases List.mem_append.mp hx with hx | hx
    · exact hl x hx
    · exact hn x hx
  · exact .inr h

theorem feedStep_core (g : Gen K) (hm : g.cfg.axisMap = fun _ => none) (cmd : Str) (kw : Kw K)
    (hc : (isMotion cmd = true ∨ cmd = "G92".toList) ∨ kw.args 'F' = none)
    (hp : ∀ w ∈ paramWords kw, w.name ≠ ['F']) : FeedStep g (g.gcodeCore cmd kw) := by
  rw [gcodeCore_eq]
  split
  · cases hF : g.newVal (baseCmd cmd) kw 'F' with
    | none =>
      refine .inl ⟨_, adds_writeLine (g.afterLoop _ _) _ _, ?_⟩
      intro b hb
      simp only [List.mem_singleton] at hb
      subst hb
      rintro ⟨w, hw, hn⟩
      rw [wordsOf_plain _ hm] at hw
      simp only [List.mem_filterMap, Option.map_eq_some_iff] at hw
      obtain ⟨k, _, u, hu, rfl⟩ := hw
      simp only [List.cons.injEq, and_true] at hn
      subst hn
      simp only [Gen.posParams, hF] at hu
      simp at hu
    | some v =>
      have hmot : isMotion cmd = true ∨ cmd = "G92".toList := by
        rcases hc with h | h
        · exact h
        · simp [Gen.newVal, h] at hF
      refine .inr ?_
      unfold FeedAgree
      have hk : 'F' ∈ posKeys := by decide
      have hl : ((g.afterLoop (baseCmd cmd) kw).writeLine
          ⟨cmd, g.cfg.wordsOf (g.posParams (baseCmd cmd) kw)⟩ kw.comment).last 'F' = some v := by
        simp [Gen.afterLoop, hk, hF]
      rw [hl]
      dsimp only
      rw [writeLine_machine, wordsOf_plain _ hm, exec_motion _ _ hmot]
      refine ⟨g.cfg.outVal 'F' v, ?_, ?_⟩
      · simp [Gen.posParams, hk, hF]
      · right; simp [Cfg.outVal]
  · split
    · refine .inl ⟨_, adds_writeLine (g.afterLoop _ _) _ _, ?_⟩
      intro b hb
      simp only [List.mem_singleton] at hb
      subst hb
      rintro ⟨w, hw, hn⟩
      exact hp w hw hn
    · exact .inl ⟨[], by simp [Adds], by simp⟩

theorem feedStep_command (g : Gen K) (hm : g.cfg.axisMap = fun _ => none) (cmd : Str) (kw : Kw K)
    (hc : canonicalCmd cmd ∈ motionGroup ∨ kw.args 'F' = none) : FeedStep g (g.command cmd kw) := by
  unfold Gen.command
  split
  · exact .inl ⟨[], adds_refl g, by simp⟩
  · refine feedStep_core g hm _ _ ?_ (by simp [paramWords])
    rcases hc with h | h
    · exact .inl (.inl (canonical_motion cmd h).1)
    · exact .inr h

theorem dwellBlocks_noF (ms : K) : ∀ b ∈ dwellBlocks ms, ¬ hasF b := by
  intro b hb
  unfold dwellBlocks at hb
  split at hb
  · simp at hb; subst hb; rintro ⟨w, hw, h⟩; simp at hw; subst hw; simp at h
  · simp at hb

theorem afterRetract_noF (c : Cfg K) (w) : ∀ b ∈ afterRetract c w, ¬ hasF b := by
  intro b hb
  unfold afterRetract at hb
  rcases List.mem_append.mp hb with hb | hb
  · split at hb
    · simp only [List.mem_cons] at hb
      rcases hb with rfl | hb
      · rintro ⟨w, hw, h⟩; simp at hw
      · exact dwellBlocks_noF _ b hb
    · simp at hb
  · exact dwellBlocks_noF _ b hb

/-- Calls for which C06 is claimed: the trackable ones, minus opaque F parameters. -/
def FeedTrackable : Call K → Prop
  | .setUnits .. | .setAxisOffset .. | .setAxisScale .. | .mapAxis .. | .normalizeAxisAngle .. => False
  | .setAlt d u => d = none ∧ u = none
  | .gcodeCommand cmd kw => canonicalCmd cmd ∈ motionGroup ∨ (kw.args 'F' = none ∧ kw.params = none)
  | _ => True

/-- The configuration facts C06 needs. -/
structure FeedCfg (c : Cfg K) : Prop where
  map : c.axisMap = fun _ => none
  altUp : c.altUp = none
  altDown : c.altDown = none

theorem feedStep_toolUp (g : Gen K) (r w c) (h : FeedCfg g.cfg) :
    ∃ l, Adds g (g.toolUp r w c) l ∧ ∀ b ∈ l, ¬ hasF b := by
  refine ⟨_, adds_toolUp g r w c _ (adds_toolUpMove g r c h.altUp), ?_⟩
  intro b hb
  rcases List.mem_append.mp hb with hb | hb
  · simp only [List.mem_singleton] at hb
    subst hb
    rintro ⟨w, hw, hn⟩
    rw [h.map] at hw; simp at hw; subst hw; simp at hn
  · exact afterRetract_noF _ _ b hb

theorem feedStep_feedRate (g : Gen K) (f : K) : FeedStep g (g.feedRate f).1 := by
  unfold Gen.feedRate
  split
  · refine .inr ?_
    unfold FeedAgree
    dsimp only
    rw [upd_same]
    refine ⟨f, ?_, .inl rfl⟩
    show (g.writeLine _ _).machine.feed = _
    rw [writeLine_machine]
    rfl
  · exact .inl ⟨[], adds_refl _, by simp⟩

theorem feedStep_step (g : Gen K) (c : Call K) (hc : FeedTrackable c) (h : FeedCfg g.cfg) : FeedStep g (g.step c).1 := by
  have hq : ∀ g' : Gen K, Quiet g g' → FeedStep g g' := by
    intro g' q; exact .inl ⟨[], by simp [Adds, q.blocks], by simp⟩
  by_cases hcf : c.isConfig = true
  · obtain ⟨c', hc'⟩ := config_step g c hcf
    rw [hc']; exact .inl ⟨[], by simp [Adds], by simp⟩
  cases c <;> simp only [Call.isConfig, not_true] at hcf <;> dsimp only [Gen.step, FeedTrackable] at hc ⊢
  case rapidMove x y z a com =>
    unfold Gen.rapidMove
    dsimp only
    have h1 : ∃ l, Adds g (if g.rapidLifts then g.toolUp else g) l ∧ ∀ b ∈ l, ¬ hasF b := by
      split
      · exact feedStep_toolUp g _ _ _ h
      · exact ⟨[], adds_refl _, by simp⟩
    have hc1 : (if g.rapidLifts then g.toolUp else g).cfg = g.cfg := by
      split
      · exact toolUp_cfg _ _ _ _
      · rfl
    obtain ⟨l1, ha1, hn1⟩ := h1
    generalize (if g.rapidLifts then g.toolUp else g) = g1 at ha1 hc1 ⊢
    exact FeedStep.after ha1 hn1 (feedStep_command g1 (by rw [hc1]; exact h.map) _ _ (.inl (by decide)))
  case feed =>
    unfold Gen.feed
    split
    · exact hq _ (Quiet.refl _)
    · exact feedStep_command g h.map _ _ (.inl (by decide))
  case feedArc cw x y i j a z f com =>
    unfold Gen.feedArc
    split
    · dsimp only
      split
      · exact hq _ (Quiet.refl _)
      · exact feedStep_command g h.map _ _ (.inl (by cases cw <;> decide))
    · exact hq _ (Quiet.refl _)
  case toolUp => exact .inl (feedStep_toolUp g _ _ _ h)
  case toolDown z f w com =>
    unfold Gen.toolDown
    dsimp only
    have h1 : ∃ l, Adds g (if g.cfg.spAuto then g.spindleOn else g) l ∧ ∀ b ∈ l, ¬ hasF b := by
      split
      · refine ⟨_, adds_spindleOn g _ _ _ _, ?_⟩
        intro b hb
        simp only [List.mem_cons] at hb
        rcases hb with rfl | hb
        · rintro ⟨w, hw, hn⟩; simp at hw; subst hw; simp at hn
        · exact dwellBlocks_noF _ b hb
      · exact ⟨[], adds_refl _, by simp⟩
    have hc1 : (if g.cfg.spAuto then g.spindleOn else g).cfg = g.cfg := by
      split
      · exact spindleOn_cfg _ _ _ _ _
      · rfl
    obtain ⟨l1, ha1, hn1⟩ := h1
    generalize (if g.cfg.spAuto then g.spindleOn else g) = g1 at ha1 hc1 ⊢
    have hmv : g1.toolDownMove z (f.getD g.cfg.zfeed) com = g1.command "G01".toList
        { args := kwOf [('Z', some z), ('F', some (f.getD g.cfg.zfeed))], comment := com } := by
      unfold Gen.toolDownMove; rw [hc1, h.altDown]
    rw [hmv]
    have h2 := feedStep_command g1 (by rw [hc1]; exact h.map) "G01".toList
        { args := kwOf [('Z', some z), ('F', some (f.getD g.cfg.zfeed))], comment := com } (.inl (by decide))
    generalize g1.command "G01".toList
        { args := kwOf [('Z', some z), ('F', some (f.getD g.cfg.zfeed))], comment := com } = g2 at h2 ⊢
    have h3 : FeedStep g ({ g2 with isToolUp := false } : Gen K) :=
      FeedStep.after ha1 hn1 (h2.then (l := []) (by simp [Adds]) (by simp) rfl rfl)
    refine h3.then (adds_wait _ (w.getD g.cfg.waitDown)) (dwellBlocks_noF _) ?_ ?_
    · split
      · rw [dwell_last]
      · rfl
    · split
      · unfold Gen.dwell; split <;> rfl
      · rfl
  case spindleOn =>
    refine .inl ⟨_, adds_spindleOn g _ _ _ _, ?_⟩
    intro b hb
    simp only [List.mem_cons] at hb
    rcases hb with rfl | hb
    · rintro ⟨w, hw, hn⟩; simp at hw; subst hw; simp at hn
    · exact dwellBlocks_noF _ b hb
  case spindleOff =>
    refine .inl ⟨_, adds_spindleOff g _ _, ?_⟩
    intro b hb
    simp only [List.mem_cons] at hb
    rcases hb with rfl | hb
    · rintro ⟨w, hw, hn⟩; simp at hw
    · exact dwellBlocks_noF _ b hb
  case dwell ms com => exact .inl ⟨_, adds_dwell g ms com, dwellBlocks_noF ms⟩
  case pause b com =>
    unfold Gen.pause
    exact feedStep_command g h.map _ _ (.inr rfl)
  case comment => exact hq _ (quiet_comment _ _ _)
  case header today com =>
    rw [header_eq]
    dsimp only
    have hf := quiet_headerFront g today com
    have hmd := adds_headerModal (g.headerFront today com)
    have hset : ∀ b ∈ setupBlocks (g.headerFront today com).cfg, ¬ hasF b := by
      intro b hb
      rintro ⟨w, hw, hn⟩
      simp only [setupBlocks, List.mem_append, List.mem_cons, List.not_mem_nil, or_false] at hb
      rcases hb with (rfl | rfl | rfl | rfl | rfl) | hb
      · simp at hw
      · simp at hw
      · simp at hw
      · simp at hw
      · simp at hw
      · unfold blendBlocks at hb
        split at hb
        · split at hb <;> simp at hb <;> subst hb <;> simp at hw
          · subst hw; simp at hn
          · rcases hw with rfl | rfl <;> simp at hn
        · split at hb
          · simp at hb; subst hb; simp at hw
          · simp at hb
    generalize (g.headerFront today com).headerModal = g1 at hmd ⊢
    have ha1 : Adds g g1 (setupBlocks (g.headerFront today com).cfg) := by
      have := hmd.1; unfold Adds at this ⊢; rw [this, hf.blocks]
    have h2 : Quiet g1 ((g1.writeRaw ['\n']).comment (.one "Default feed rate".toList)) :=
      (quiet_writeRaw _ _).trans (quiet_comment _ _ _)
    generalize (g1.writeRaw ['\n']).comment (.one "Default feed rate".toList) = g2 at h2 ⊢
    have ha2 : Adds g g2 (setupBlocks (g.headerFront today com).cfg) := by
      unfold Adds at ha1 ⊢; rw [h2.blocks, ha1]
    have h3 := FeedStep.after ha2 hset (feedStep_feedRate g2 g2.cfg.xyfeed)
    generalize g2.feedRate g2.cfg.xyfeed = r at h3 ⊢
    obtain ⟨g7, e⟩ := r
    cases e
    · exact h3.then (l := []) (by simp [Adds]) (by simp) rfl rfl
    · exact h3
  case footer =>
    rcases hrs : g.offsetReset with _ | _
    · refine .inl ⟨_, (C20_footer g).1.trans (List.append_assoc _ _ _), ?_⟩
      intro b hb
      rw [hrs] at hb
      simp at hb; subst hb; rintro ⟨w, hw, _⟩; simp at hw
    · refine .inl ⟨_, (C20_footer g).1.trans (List.append_assoc _ _ _), ?_⟩
      intro b hb
      rw [hrs] at hb
      simp at hb
      rcases hb with rfl | rfl <;> (rintro ⟨w, hw, _⟩; simp at hw)
  case feedRate => exact feedStep_feedRate _ _
  case gcodeCommand cmd kw =>
    unfold Gen.gcodeCommand
    split
    · exact hq _ (Quiet.refl _)
    · dsimp only
      split
      · exact hq _ (Quiet.refl _)
      · rename_i hp
        rcases hc with hc | hc
        · refine feedStep_core g h.map _ _ (.inl (.inl (canonical_motion cmd hc).1)) ?_
          have hp' : kw.hasParams = false := by
            by_contra hne; exact hp ⟨hc, by simpa using hne⟩
          unfold Kw.hasParams at hp'
          unfold paramWords
          cases hpar : kw.params with
          | none => simp
          | some p => rw [hpar] at hp'; simp at hp'; simp [hp']
        · exact feedStep_core g h.map _ _ (.inr hc.1) (by simp [paramWords, hc.2])

theorem feedCfg_step (g : Gen K) (c : Call K) (hc : FeedTrackable c) (h : FeedCfg g.cfg) : FeedCfg (g.step c).1.cfg := by
  by_cases hcf : c.isConfig = true
  · cases c <;> simp only [Call.isConfig, Bool.false_eq_true] at hcf <;> dsimp only [Gen.step, FeedTrackable] at hc ⊢
    all_goals first
      | exact ⟨h.map, h.altUp, h.altDown⟩
      | exact hc.elim
      | exact ⟨h.map, hc.2, hc.1⟩
      | (unfold Gen.setUnitProp; split <;> exact ⟨h.map, h.altUp, h.altDown⟩)
      | (unfold Gen.setPathBlending; dsimp only; split <;> exact ⟨h.map, h.altUp, h.altDown⟩)
      | skip
  · rw [step_cfg g c (by simpa using hcf)]; exact h

theorem feedScale_step (g : Gen K) (c : Call K) (hc : FeedTrackable c) :
    (g.step c).1.cfg.axisScale 'F' = g.cfg.axisScale 'F' ∧ (g.step c).1.cfg.axisOffset 'F' = g.cfg.axisOffset 'F' := by
  by_cases hcf : c.isConfig = true
  · cases c <;> simp only [Call.isConfig, Bool.false_eq_true] at hcf <;> dsimp only [Gen.step, FeedTrackable] at hc ⊢
    all_goals try exact ⟨rfl, rfl⟩
    all_goals try exact hc.elim
    · unfold Gen.setUnitProp; split <;> exact ⟨rfl, rfl⟩
    · unfold Gen.setPathBlending; dsimp only; split <;> exact ⟨rfl, rfl⟩
  · rw [step_cfg g c (by simpa using hcf)]; exact ⟨rfl, rfl⟩

/-- No call of the history changed the reported feed rate without writing an F word. -/
def NoSilentFeed (g : Gen K) : List (Call K) → Prop
  | [] => True
  | c :: cs => ((g.step c).1.position ['F'] = g.position ['F'] ∨ ∃ b ∈ newBlocks g c, hasF b) ∧ NoSilentFeed (g.step c).1 cs

theorem feedAgree_run (calls : List (Call K)) (g : Gen K) (hf : FeedCfg g.cfg) (hc : ∀ c ∈ calls, FeedTrackable c)
    (hs : NoSilentFeed g calls) (ha : FeedAgree g) : FeedAgree (g.run calls) ∧ FeedCfg (g.run calls).cfg := by
  induction calls generalizing g with
  | nil => exact ⟨ha, hf⟩
  | cons c cs ih =>
    have hcc := hc c (by simp)
    refine ih _ (feedCfg_step g c hcc hf) (fun c' h' => hc c' (by simp [h'])) hs.2 ?_
    have e1 : upperS ['F'] = ['F'] ∧ 'F' ∈ orderedParams := by decide
    have hs1 := hs.1
    simp only [Gen.position, e1.1, e1.2, if_true, Except.ok.injEq] at hs1
    rcases feedStep_step g c hcc hf with ⟨l, hl, hn⟩ | h
    · rcases hs1 with hs1 | ⟨b, hb, hbF⟩
      · have hfeed : (g.step c).1.machine.feed = g.machine.feed := by rw [hl.machine, run_noF _ _ hn]
        have hsc := feedScale_step g c hcc
        unfold FeedAgree at ha ⊢
        rw [hs1, hfeed]
        unfold FeedIs at ha ⊢
        rw [hsc.1, hsc.2]
        exact ha
      · rw [newBlocks_of_adds hl] at hb
        exact absurd hbF (hn b hb)
    · exact h

/-- Specification: the feed rate a `feed` call asks for: the one given, otherwise the default for XY moves if the tool moves in X or Y, for Z moves if it moves in Z only (perhaps
turning), and for the rotary axis if it only turns. -/
inductive FeedWanted (c : Cfg K) : Option K → Option K → Option K → Option K → Option K → K → Prop
  | given (x y z a : Option K) (f : K) : FeedWanted c x y z a (some f) f
  | xy (x y z a : Option K) : x ≠ none ∨ y ≠ none → FeedWanted c x y z a none c.xyfeed
  | z (z : K) (a : Option K) : FeedWanted c none none (some z) a none c.zfeed
  | a (a : K) : FeedWanted c none none none (some a) none c.afeed

theorem pickFeed_wanted {c : Cfg K} {x y z a feed : Option K} {f : K} (h : FeedWanted c x y z a feed f) : c.pickFeed x y z a feed = some f := by
  cases h with
  | given => rfl
  | xy x y z a h =>
    unfold Cfg.pickFeed
    rw [if_pos]
    rcases h with h | h
    · cases x <;> simp at h ⊢
    · cases y <;> simp at h ⊢
  | z => rfl
  | a => rfl

/-- **C06 (partial)**.  In every history (no axis renaming, no rescaling, no alternate tool commands) in which no call
changed the reported feed rate silently, the next `feed(…)` that writes a line leaves the controller at a feed rate equal to
some reported rate `l` — raw or through the configured F scale — where `l` is the rate requested (or the documented
default for the move) or within the tolerance of it.

Missing: histories with a silent feed-rate change (refuted below). -/
theorem C06_feed_in_force_partial (g0 : Gen K) (h0 : Fresh g0) (calls : List (Call K)) (hc : ∀ c ∈ calls, FeedTrackable c)
    (hs : NoSilentFeed g0 calls) (x y z a feed : Option K) (com : Option Str) (f : K)
    (hf : FeedWanted (g0.run calls).cfg x y z a feed f)
    (hemit : (newBlocks (g0.run calls) (.feed x y z a feed com)) ≠ []) :
    ∃ l w, ((g0.run calls).feed x y z a feed com).machine.feed = some w ∧ FeedIs (g0.run calls).cfg w l ∧
      (l = f ∨ ((g0.run calls).cfg.tol <. abs (f -. l)) = false) := by
  replace hf := pickFeed_wanted hf
  have hag : FeedAgree g0 := by
    unfold FeedAgree; rw [h0.last]; simp [Gen.machine, h0.out, blocksOf, Machine.run, Machine.off]
  obtain ⟨hA, hC⟩ := feedAgree_run calls g0 ⟨h0.map, h0.altUp, h0.altDown⟩ hc hs hag
  generalize g0.run calls = g at hf hemit hA hC ⊢
  have hfeed : g.feed x y z a feed com = g.command "G01".toList
      { args := kwOf [('X', x), ('Y', y), ('Z', z), ('A', a), ('F', some f)], comment := com } := by
    unfold Gen.feed; rw [hf]
  have hcmd : g.feed x y z a feed com = g.gcodeCore "G01".toList
      ⟨kwOf [('X', x), ('Y', y), ('Z', z), ('A', a), ('F', some f)], none, [], com⟩ := by
    rw [hfeed]; unfold Gen.command
    have he : "G01".toList.isEmpty = false := rfl
    have hcan : canonicalCmd "G01".toList = "G01".toList := by decide
    simp only [he, hcan, Bool.false_eq_true, if_false]
  have hargF : (kwOf [('X', x), ('Y', y), ('Z', z), ('A', a), ('F', some f)]) 'F' = some f := by simp [kwOf]
  -- tracked F after the call is near f
  have hbase : baseCmd "G01".toList = "G01".toList := by decide
  have hFk : 'F' ∈ posKeys := by decide
  have hnear : ∃ l, (g.feed x y z a feed com).last 'F' = some l ∧ (l = f ∨ (g.cfg.tol <. abs (f -. l)) = false) := by
    rw [hcmd]
    have h1 : ∀ kw, (g.gcodeCore "G01".toList kw).last 'F' = (g.newVal "G01".toList kw 'F').or (g.last 'F') := by
      intro kw
      rw [gcodeCore_eq, hbase]; split
      · simp [Gen.afterLoop, hFk]
      · split <;> simp [Gen.afterLoop, hFk]
    rw [h1]
    unfold Gen.newVal
    dsimp only
    rw [hargF]
    dsimp only
    split
    · exact ⟨f, by simp [Cfg.effVal], .inl rfl⟩
    · rename_i hno
      push Not at hno
      have hch := hno.2.1
      unfold Gen.hasChanged at hch
      cases hl : g.last 'F' with
      | none => rw [hl] at hch; simp at hch
      | some l =>
        rw [hl] at hch
        refine ⟨l, rfl, .inr ?_⟩
        simpa [Cfg.effVal] using hch
  obtain ⟨l, hl, hn⟩ := hnear
  -- the controller's feed agrees with the tracked F
  have hAfter : FeedAgree (g.feed x y z a feed com) := by
    rw [hcmd]
    have hst := feedStep_core g hC.map "G01".toList
      ⟨kwOf [('X', x), ('Y', y), ('Z', z), ('A', a), ('F', some f)], none, [], com⟩ (.inl (.inl (by decide)))
      (by simp [paramWords])
    rcases hst with ⟨l0, hl0, hno⟩ | h
    · -- no F word although a line was written: F unchanged
      rw [gcodeCore_eq, hbase]
      generalize hkw : (Kw.mk (kwOf [('X', x), ('Y', y), ('Z', z), ('A', a), ('F', some f)]) none [] com) = kw at *
      split
      · rename_i hem
        have hFn : g.newVal "G01".toList kw 'F' = none := by
          by_contra hne
          obtain ⟨v, hv⟩ := Option.ne_none_iff_exists'.mp hne
          rw [gcodeCore_eq, hbase, if_pos hem] at hl0
          have := adds_writeLine (g.afterLoop "G01".toList kw) ⟨"G01".toList, g.cfg.wordsOf (g.posParams "G01".toList kw)⟩ kw.comment
          have heq : l0 = [⟨"G01".toList, g.cfg.wordsOf (g.posParams "G01".toList kw)⟩] := by
            unfold Adds at hl0 this
            rw [this] at hl0
            simpa using hl0.symm
          apply hno ⟨"G01".toList, g.cfg.wordsOf (g.posParams "G01".toList kw)⟩ (by rw [heq]; simp)
          refine ⟨⟨['F'], .num g.cfg.digits (g.cfg.outVal 'F' v)⟩, ?_, rfl⟩
          dsimp only
          rw [wordsOf_plain _ hC.map]
          simp only [List.mem_filterMap]
          exact ⟨'F', by decide, by simp only [Gen.posParams, hFk, if_true, hv]; rfl⟩
        refine feedAgree_congr (g := g) ?_ ?_ rfl hA
        · simp only [Gen.afterLoop, Gen.writeLine, hFk, if_true, hFn]; rfl
        · rw [gcodeCore_eq, hbase, if_pos hem] at hl0
          rw [hl0.machine, run_noF _ _ hno]
      · rename_i hem
        exfalso
        apply hemit
        have hmg : baseCmd "G01".toList ∈ motionGroup := by decide
        have : Adds g (g.step (.feed x y z a feed com)).1 [] := by
          show Adds g (g.feed x y z a feed com) []
          rw [hcmd, gcodeCore_eq, hbase, if_neg hem]
          rw [hbase] at hmg
          simp only [hmg, not_true, decide_false, Bool.and_false, Bool.false_eq_true, if_false]
          simp [Adds]
        exact newBlocks_of_adds this
    · exact h
  have hcfg : (g.feed x y z a feed com).cfg = g.cfg := by rw [hfeed]; exact command_cfg _ _ _
  unfold FeedAgree at hAfter
  rw [hl, hcfg] at hAfter
  obtain ⟨w, hw, hfi⟩ := hAfter
  exact ⟨l, w, hw, hfi, hn⟩

/-- Non-vacuity: a plunge at 10 followed by a feed at 20. -/
example : Fresh demo ∧ NoSilentFeed demo [.feedRate 10] ∧
    ((demo.run [.feedRate 10]).feed (some 1) none none none (some 20) none).machine.feed = some 20 := by
  refine ⟨demo_fresh, ⟨.inr ⟨⟨[], [⟨['F'], .num 6 10⟩]⟩, ?_, ⟨⟨['F'], .num 6 10⟩, by simp, rfl⟩⟩, trivial⟩, ?_⟩
  · decide +kernel
  · decide +kernel

/-- Feed to X1 at 10, ask for the same place at 20 (nothing is written), feed to X2 at 20. -/
def demoStale : Gen ℚ := demo.run [.feed (some 1) none none none (some 10) none, .feed (some 1) none none none (some 20) none,
  .feed (some 2) none none none (some 20) none]

/-- **C06 refuted**: the last line written carries no F word, so the controller executes a feed requested at 20 at the
stale rate 10, while the generator reports 20. -/
theorem C06_refuted_stale_feed : demoStale.machine.feed = some 10 ∧ demoStale.last 'F' = some 20 ∧
    demoStale.machine.pos 'X' = some 2 := by
  decide +kernel

end Verif.GCode
