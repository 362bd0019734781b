import Verif.Cam.Props12

/-!
# C109: the spindle while cutting
-/

set_option linter.unusedSectionVars false

namespace Verif.Cam
open Verif PyFloat PyTrig Geom GCode

variable {K : Type} [PyTrig K]

/-- The words of the line of a motion command are among the given arguments. -/
theorem command_words (g : Gen K) (cmd : Str) (kw : Kw K) (hm : g.cfg.axisMap = fun _ => none) :
    ∃ l, Adds g (g.command cmd kw) l ∧ l.length ≤ 1 ∧ ∀ b ∈ l, b.cmd = canonicalCmd cmd ∧ ∀ w ∈ b.words, ∃ k, w.name = [k] ∧ (kw.args k).isSome := by
  unfold Gen.command
  split
  · exact ⟨[], adds_refl g, by simp, by simp⟩
  · rw [gcodeCore_eq]
    split
    · refine ⟨_, (adds_writeLine _ _ _ : Adds (g.afterLoop _ _) _ _), by simp, ?_⟩
      intro b hb
      simp only [List.mem_singleton] at hb
      subst hb
      refine ⟨rfl, ?_⟩
      rw [wordsOf_plain _ hm]
      intro w hw
      simp only [List.mem_filterMap, Option.map_eq_some_iff] at hw
      obtain ⟨k, -, v, hv, rfl⟩ := hw
      refine ⟨k, rfl, ?_⟩
      unfold Gen.posParams at hv
      split at hv
      · simp only [Option.map_eq_some_iff] at hv
        obtain ⟨v', hv', -⟩ := hv
        unfold Gen.newVal at hv'
        split at hv'
        · cases hv'
        · rename_i h; dsimp only at h; rw [h]; rfl
      · cases hv
    · split
      · refine ⟨_, (adds_writeLine _ _ _ : Adds (g.afterLoop _ _) _ _), by simp, ?_⟩
        intro b hb
        simp only [List.mem_singleton] at hb
        subst hb
        refine ⟨rfl, ?_⟩
        simp [paramWords]
      · exact ⟨[], adds_refl _, by simp, by simp⟩

/-! ## Cutting with the spindle on -/

/-- A cutting move: a feed that moves X or Y. -/
def IsCut (b : Block K) : Prop := isFeed b.cmd = true ∧ movesXY b

/-- Specification: every cutting move of a program is executed with the spindle on. -/
def CutsSpinning (bs : List (Block K)) : Prop :=
  ∀ pre b post, bs = pre ++ b :: post → IsCut b → (Machine.off.run pre).spindle = true

theorem cuts_append {a l : List (Block K)} (ha : CutsSpinning a)
    (hl : ∀ pre b post, l = pre ++ b :: post → IsCut b → ((Machine.off.run a).run pre).spindle = true) : CutsSpinning (a ++ l) := by
  intro pre b post h hb
  rcases List.append_eq_append_iff.1 h with ⟨as, h1, h2⟩ | ⟨as, h1, h2⟩
  · have := hl as b post h2 hb
    rwa [h1, GCode.run_append]
  · cases as with
    | nil =>
      simp only [List.append_nil, List.nil_append] at h1 h2
      have := hl [] b post h2.symm hb
      rw [← h1]; exact this
    | cons b' as =>
      simp only [List.cons_append, List.cons.injEq] at h2
      obtain ⟨rfl, -⟩ := h2
      exact ha pre b as h1 hb

theorem not_cut_of_cmd {cmd : Str} (ws : List (Word K)) (h : isFeed cmd = false) : ¬ IsCut (⟨cmd, ws⟩ : Block K) := by
  rintro ⟨h1, -⟩
  dsimp only at h1
  rw [h] at h1
  cases h1

theorem dwell_not_cut (ms : K) : ∀ b ∈ dwellBlocks ms, ¬ IsCut b := by
  intro b hb
  unfold dwellBlocks at hb
  split at hb
  · simp only [List.mem_singleton] at hb; subst hb; exact not_cut_of_cmd _ (by decide)
  · simp at hb

/-- The calls that cut. -/
def Feeds : Call K → Prop
  | .feed .. | .feedArc .. => True
  | _ => False

/-- All other calls of the CAM object write no cutting moves. -/
theorem cam_nocut (g : Gen K) (c : Call K) (hc : CamCall c) (hf : ¬ Feeds c) (hm : g.cfg.axisMap = fun _ => none) (hu : g.cfg.altUp = none)
    (hd : g.cfg.altDown = none) : ∃ l, Adds g (g.step c).1 l ∧ ∀ b ∈ l, ¬ IsCut b := by
  have hup : ∀ (g : Gen K) (r : Bool) (w : Option K) (com : Option Str), g.cfg.axisMap = (fun _ => none) → g.cfg.altUp = none →
      ∃ l, Adds g (g.toolUp r w com) l ∧ ∀ b ∈ l, ¬ IsCut b := by
    intro g r w com hm hu
    refine ⟨_, adds_toolUp g r w com _ (adds_toolUpMove g r com hu), ?_⟩
    intro b hb
    rcases List.mem_append.1 hb with hb | hb
    · simp only [List.mem_singleton] at hb
      subst hb
      rw [hm]
      rintro ⟨-, w, hw, hn⟩
      simp only [Option.getD_none, List.mem_singleton] at hw
      subst hw
      revert hn; dsimp only; decide
    · simp only [afterRetract, List.mem_append] at hb
      rcases hb with hb | hb
      · split at hb
        · simp only [List.mem_cons] at hb
          rcases hb with rfl | hb
          · exact not_cut_of_cmd _ (by decide)
          · exact dwell_not_cut _ b hb
        · simp at hb
      · exact dwell_not_cut _ b hb
  cases c <;> (try exact hc.elim) <;> (try exact (hf trivial).elim) <;> dsimp only [Gen.step]
  case rapidMove x y z a com =>
    unfold Gen.rapidMove
    dsimp only
    have h1 : ∃ l, Adds g (if g.rapidLifts then g.toolUp else g) l ∧ ∀ b ∈ l, ¬ IsCut b := by
      split
      · exact hup g _ _ _ hm hu
      · exact ⟨[], adds_refl _, by simp⟩
    obtain ⟨l1, ha, hh⟩ := h1
    generalize (if g.rapidLifts then g.toolUp else g) = g1 at ha ⊢
    rcases adds_command g1 "G00".toList { args := kwOf [('X', x), ('Y', y), ('Z', some (maxZ g1.cfg.zsafe z)), ('A', a)], comment := com }
      with h2 | ⟨ws, h2⟩
    · exact ⟨_, ha.trans h2, by rw [List.append_nil]; exact hh⟩
    · refine ⟨_, ha.trans h2, ?_⟩
      intro b hb
      rcases List.mem_append.1 hb with hb | hb
      · exact hh b hb
      · simp only [List.mem_singleton] at hb
        subst hb
        exact not_cut_of_cmd _ (by decide)
  case toolUp r w com => exact hup g r w com hm hu
  case toolDown z f w com =>
    unfold Gen.toolDown
    dsimp only
    have h1 : ∃ l, Adds g (if g.cfg.spAuto then g.spindleOn else g) l ∧ ∀ b ∈ l, ¬ IsCut b := by
      split
      · refine ⟨_, adds_spindleOn g _ _ _ _, ?_⟩
        intro b hb
        simp only [List.mem_cons] at hb
        rcases hb with rfl | hb
        · split <;> exact not_cut_of_cmd _ (by decide)
        · exact dwell_not_cut _ b hb
      · exact ⟨[], adds_refl _, by simp⟩
    have hc1 : (if g.cfg.spAuto then g.spindleOn else g).cfg = g.cfg := by
      split
      · exact spindleOn_cfg _ _ _ _ _
      · rfl
    obtain ⟨l1, ha, hh⟩ := h1
    generalize (if g.cfg.spAuto then g.spindleOn else g) = g1 at ha hc1 ⊢
    have hmv : g1.toolDownMove z (f.getD g.cfg.zfeed) com = g1.command "G01".toList
        { args := kwOf [('Z', some z), ('F', some (f.getD g.cfg.zfeed))], comment := com } := by
      unfold Gen.toolDownMove; rw [hc1, hd]
    rw [hmv]
    obtain ⟨l2, h2, -, hh2⟩ := command_words g1 "G01".toList { args := kwOf [('Z', some z), ('F', some (f.getD g.cfg.zfeed))], comment := com }
      (by rw [hc1]; exact hm)
    generalize g1.command "G01".toList { args := kwOf [('Z', some z), ('F', some (f.getD g.cfg.zfeed))], comment := com } = g2 at h2 ⊢
    have h3 := adds_wait ({ g2 with isToolUp := false } : Gen K) (w.getD g.cfg.waitDown)
    refine ⟨_, (ha.trans (b := g1) (c := { g2 with isToolUp := false }) h2).trans h3, ?_⟩
    intro b hb
    rcases List.mem_append.1 hb with hb | hb
    · rcases List.mem_append.1 hb with hb | hb
      · exact hh b hb
      · rintro ⟨-, w, hw, hn⟩
        obtain ⟨k, hk, hs⟩ := (hh2 b hb).2 w hw
        rcases hn with hn | hn
        · rw [hk] at hn
          simp only [List.cons.injEq, and_true] at hn
          subst hn
          simp [kwOf, List.lookup] at hs
        · rw [hk] at hn
          simp only [List.cons.injEq, and_true] at hn
          subst hn
          simp [kwOf, List.lookup] at hs
    · exact dwell_not_cut _ b hb
  case comment cc s => exact ⟨[], by unfold Adds; rw [(quiet_comment g cc s).blocks]; simp, by simp⟩
  case header t com =>
    refine ⟨_, (C20_header_lines g t com).trans (List.append_assoc _ _ _ |>.trans (List.append_assoc _ _ _)), ?_⟩
    intro b hb
    simp only [List.mem_append, List.mem_cons, List.not_mem_nil, or_false] at hb
    rcases hb with (rfl | rfl | rfl | rfl | rfl) | hb | hb
    · exact not_cut_of_cmd _ (by decide)
    · split <;> exact not_cut_of_cmd _ (by decide)
    · exact not_cut_of_cmd _ (by decide)
    · exact not_cut_of_cmd _ (by decide)
    · exact not_cut_of_cmd _ (by decide)
    · unfold blendBlocks at hb
      repeat' split at hb
      all_goals simp only [List.mem_singleton, List.not_mem_nil, List.mem_cons, or_false] at hb
      all_goals subst hb; exact not_cut_of_cmd _ (by decide)
    · split at hb
      · simp only [List.mem_singleton] at hb; subst hb; exact not_cut_of_cmd _ (by decide)
      · simp at hb
  case footer =>
    refine ⟨_, (C20_footer g).1.trans (List.append_assoc _ _ _), ?_⟩
    intro b hb
    simp only [List.mem_append] at hb
    rcases hb with hb | hb
    · split at hb
      · simp only [List.mem_singleton] at hb; subst hb; exact not_cut_of_cmd _ (by decide)
      · simp at hb
    · simp only [List.mem_singleton] at hb; subst hb; exact not_cut_of_cmd _ (by decide)
  case addHeaderComment t => exact ⟨[], by simp [Adds, Gen.addHeaderComment], by simp⟩

/-- A cutting call writes at most one line, a motion. -/
theorem feeds_adds (g : Gen K) (c : Call K) (hf : Feeds c) :
    ∃ l, Adds g (g.step c).1 l ∧ l.length ≤ 1 ∧ (g.step c).1.machine.spindle = g.machine.spindle := by
  have hcmd : ∀ (cmd : Str) (kw : Kw K), canonicalCmd cmd ∈ motionGroup →
      ∃ l, Adds g (g.command cmd kw) l ∧ l.length ≤ 1 ∧ (g.command cmd kw).machine.spindle = g.machine.spindle := by
    intro cmd kw h
    rcases adds_command g cmd kw with h1 | ⟨ws, h1⟩
    · exact ⟨_, h1, by simp, command_spindle g cmd kw h⟩
    · exact ⟨_, h1, by simp, command_spindle g cmd kw h⟩
  cases c <;> (try exact hf.elim) <;> dsimp only [Gen.step]
  case feed x y z a f com =>
    unfold Gen.feed
    split
    · exact ⟨[], adds_refl g, by simp, rfl⟩
    · exact hcmd "G01".toList _ (by decide)
  case feedArc cw x y i j a z f com =>
    unfold Gen.feedArc
    split
    · dsimp only
      split
      · exact ⟨[], adds_refl g, by simp, rfl⟩
      · exact hcmd (if cw then "G02".toList else "G03".toList) _ (by cases cw <;> decide)
    · exact ⟨[], adds_refl g, by simp, rfl⟩

/-- What holds of the generator throughout a program with automatic spindle. -/
structure Spun (g : Gen K) : Prop where
  cuts : CutsSpinning (blocksOf g.out)
  track : TrackInv g
  auto : g.cfg.spAuto = true

/-- As before, and the spindle is on. -/
def SpunOn (s : Cam K) : Prop := Spun s.gen ∧ (s.err = none → s.gen.machine.spindle = true)

theorem spun_step (g : Gen K) (c : Call K) (hc : CamCall c) (hf : ¬ Feeds c) (h : Spun g) : Spun (g.step c).1 := by
  obtain ⟨l, ha, hl⟩ := cam_nocut g c hc hf h.track.map h.track.altUp h.track.altDown
  refine ⟨?_, trackInv_step g c h.track hc.trackable, ?_⟩
  · rw [show blocksOf (g.step c).1.out = _ from ha]
    exact cuts_append h.cuts fun pre b post hp hb => absurd hb (hl b (by rw [hp]; simp))
  · obtain ⟨hs, hcfg⟩ := cam_run_cfg [c] (by simpa using hc) g
    rw [show (g.step c).1.cfg = _ from hcfg]
    exact h.auto

theorem spun_feed (g : Gen K) (c : Call K) (hf : Feeds c) (h : Spun g) (hon : g.machine.spindle = true) :
    Spun (g.step c).1 ∧ (g.step c).1.machine.spindle = true := by
  have hc : CamCall c := by cases c <;> first | exact trivial | exact hf.elim
  obtain ⟨l, ha, hlen, hsp⟩ := feeds_adds g c hf
  refine ⟨⟨?_, trackInv_step g c h.track hc.trackable, ?_⟩, by rw [hsp]; exact hon⟩
  · rw [show blocksOf (g.step c).1.out = _ from ha]
    refine cuts_append h.cuts fun pre b post hp _ => ?_
    have : pre = [] := by
      rw [hp] at hlen
      cases pre with
      | nil => rfl
      | cons a l => simp at hlen
    subst this
    exact hon
  · obtain ⟨hs, hcfg⟩ := cam_run_cfg [c] (by simpa using hc) g
    rw [show (g.step c).1.cfg = _ from hcfg]
    exact h.auto

theorem spun_emit {s : Cam K} {c : Call K} (hc : CamCall c) (hf : ¬ Feeds c) (h : Spun s.gen) : Spun (s.emit c).gen := by
  cases he : s.err with
  | some er => rw [emit_of_err _ _ (by rw [he]; rfl)]; exact h
  | none => rw [emit_eq he]; exact spun_step _ c hc hf h

theorem spunOn_feed {s : Cam K} {c : Call K} (hf : Feeds c) (h : SpunOn s) : SpunOn (s.emit c) := by
  cases he : s.err with
  | some er => rw [emit_of_err _ _ (by rw [he]; rfl)]; exact h
  | none =>
    rw [emit_eq he]
    have := spun_feed _ c hf h.1 (h.2 he)
    exact ⟨this.1, fun _ => this.2⟩

theorem spunOn_comment {s : Cam K} (c : CommentArg) (b : Bool) (h : SpunOn s) : SpunOn (s.emit (.comment c b)) := by
  refine ⟨spun_emit trivial (fun h => h) h.1, ?_⟩
  cases he : s.err with
  | some er => rw [emit_of_err _ _ (by rw [he]; rfl)]; exact h.2
  | none =>
    rw [emit_eq he]
    intro _
    show (s.gen.comment c b).machine.spindle = true
    rw [(quiet_comment s.gen c b).machine]
    exact h.2 he

theorem spunOn_raise {s : Cam K} (er : PyErr) (h : SpunOn s) : SpunOn (s.raise er) := by
  unfold Cam.raise
  split
  · exact h
  · exact ⟨h.1, by simp⟩

theorem spunOn_set {s s' : Cam K} (hg : s'.gen = s.gen) (he : s'.err = s.err) (h : SpunOn s) : SpunOn s' := by
  unfold SpunOn
  rw [hg, he]
  exact h

theorem spunOn_segment (e : Env K) (o : Opts K) (d : K) (s : Cam K) (seg : Seg K) (h : SpunOn s) : SpunOn (s.genSegment e o d seg) := by
  unfold Cam.genSegment
  split
  · exact h
  · dsimp only
    have h0 : SpunOn { s with dist := s.dist +. seg.length e } := spunOn_set rfl rfl h
    have h1 : SpunOn (Cam.turnTo e o { s with dist := s.dist +. seg.length e } seg).1 := by
      unfold Cam.turnTo
      split
      · exact h0
      · dsimp only
        split
        · exact h0
        · exact spunOn_feed trivial (spunOn_set rfl rfl h0)
    generalize Cam.turnTo e o { s with dist := s.dist +. seg.length e } seg = t at h1 ⊢
    have h2 : SpunOn (t.1.feedSeg e seg t.2 (seg.hints.z.getD d)) := by
      unfold Cam.feedSeg
      dsimp only
      split
      · exact spunOn_feed trivial h1
      · split
        · split <;> exact spunOn_feed trivial h1
        · exact spunOn_raise _ h1
      · exact h1
    split
    · exact h2
    · exact spunOn_set rfl rfl h2

theorem spun_genRapid (e : Env K) (o : Opts K) (s : Cam K) (f : Seg K) (h : Spun s.gen) : Spun (s.genRapid e o f).gen := by
  have hr : Spun (s.rapidTo e o f).gen := by
    unfold Cam.rapidTo
    split
    · exact h
    · dsimp only
      split
      · exact spun_emit (s := { s with angle := _ }) trivial (fun h => h) h
      · exact spun_emit trivial (fun h => h) h
  unfold Cam.genRapid
  split
  · split
    · unfold Cam.raise; split <;> exact h
    · exact hr
  · exact hr

theorem spun_genPath (e : Env K) (o : Opts K) (d : K) (n : Nat) (s : Cam K) (p : Nat × Path K) (h : Spun s.gen) :
    Spun (s.genPath e o d n p).gen := by
  unfold Cam.genPath
  split
  · exact h
  · rename_i first rest _
    split
    · dsimp only
      have h1 : Spun (s.emit (.comment .none true)).gen := spun_emit trivial (fun h => h) h
      generalize s.emit (.comment .none true) = s1 at h1 ⊢
      have h2 := spun_emit (c := .comment (.one (pathComment e s1.gen p.1 n d)) true) trivial (fun h => h) h1
      generalize s1.emit (.comment (.one (pathComment e s1.gen p.1 n d)) true) = s2 at h2 ⊢
      have h3 := spun_genRapid e o s2 first h2
      generalize s2.genRapid e o first = s3 at h3 ⊢
      have h4 : SpunOn (s3.plunge d first) := by
        refine ⟨spun_emit rfl (fun h => h) h3, ?_⟩
        unfold Cam.plunge
        cases he : s3.err with
        | some er => rw [emit_of_err _ _ (by rw [he]; rfl)]; intro h; rw [he] at h; cases h
        | none =>
          rw [emit_eq he]
          intro _
          exact (C12_tool_down s3.gen _ none none none h3.track.altDown h3.auto).2
      have h5 := spunOn_comment (.one "Start tool path".toList) true h4
      generalize (s3.plunge d first).emit (.comment (.one "Start tool path".toList) true) = s5 at h5 ⊢
      have h6 : ∀ (l : List (Seg K)) (s : Cam K), SpunOn s → SpunOn (l.foldl (Cam.genSegment e o d) s) := by
        intro l
        induction l with
        | nil => intro s h; exact h
        | cons a l ih => intro s h; exact ih _ (spunOn_segment e o d s a h)
      exact (h6 _ _ h5).1
    · exact h

theorem spun_genPass (e : Env K) (o : Opts K) (paths : List (Path K)) (d : K) (n : Nat) (s : Cam K) (h : Spun s.gen) :
    Spun (s.genPass e o paths d n).gen := by
  unfold Cam.genPass
  generalize enumFrom 1 paths = l
  induction l generalizing s with
  | nil => exact h
  | cons a l ih => exact ih _ (spun_genPath e o d n s a h)

theorem spun_depthLoop {e : Env K} {o : Opts K} {paths : List (Path K)} {n : Nat} {d : K} {s s' : Cam K} {ds : List K}
    (hl : DepthLoop e o paths n d s ds s') (h : Spun s.gen) : Spun s'.gen := by
  induction hl with
  | done => exact h
  | raised n d s _ _ => exact spun_genPass e o paths d n s h
  | pass n d s ds s' _ _ _ ih => exact ih (spun_genPass e o paths d n s h)

theorem spun_generate {e : Env K} {o : Opts K} {l : List (Path K)} {s s' : Cam K} {ds : List K} (hg : Generate e o l s ds s')
    (h : Spun s.gen) : Spun s'.gen := by
  have hst : ∀ paths, Spun (s.start e paths).gen := fun paths =>
    spun_emit rfl (fun h => h) (spun_emit trivial (fun h => h) (spun_emit trivial (fun h => h) h))
  cases hg with
  | fails er => unfold Cam.raise; split <;> exact h
  | noStart paths => exact hst paths
  | runs paths ds s1 _ _ hl =>
    have h1 := spun_depthLoop hl (hst paths)
    unfold Cam.finish
    dsimp only
    have h2 : Spun (s1.emit (.toolUp true none none)).gen := spun_emit rfl (fun h => h) h1
    split
    · exact spun_emit trivial (fun h => h) (spun_emit trivial (fun h => h) h2)
    · exact spun_emit trivial (fun h => h) h2

end Verif.Cam
