import Verif.Cam.Props16

/-!
# C110: programs without tangential axis
-/

set_option linter.unusedSectionVars false

namespace Verif.Cam
open Verif PyFloat PyTrig Geom GCode

variable {K : Type} [PyTrig K]

/-- The words of the line of a motion command are the arguments, converted. -/
theorem command_vals (g : Gen K) (cmd : Str) (kw : Kw K) (hm : g.cfg.axisMap = fun _ => none) :
    ∃ l, Adds g (g.command cmd kw) l ∧
      ∀ b ∈ l, ∀ w ∈ b.words, ∃ k v, kw.args k = some v ∧ w = ⟨[k], .num g.cfg.digits (g.cfg.outVal k (g.cfg.effVal k v))⟩ := by
  unfold Gen.command
  split
  · exact ⟨[], adds_refl g, by simp⟩
  · rw [gcodeCore_eq]
    split
    · refine ⟨_, (adds_writeLine _ _ _ : Adds (g.afterLoop _ _) _ _), ?_⟩
      intro b hb
      simp only [List.mem_singleton] at hb
      subst hb
      dsimp only
      rw [wordsOf_plain _ hm]
      intro w hw
      simp only [List.mem_filterMap, Option.map_eq_some_iff] at hw
      obtain ⟨k, -, v, hv, rfl⟩ := hw
      unfold Gen.posParams at hv
      split at hv
      · simp only [Option.map_eq_some_iff] at hv
        obtain ⟨v', hv', rfl⟩ := hv
        unfold Gen.newVal at hv'
        split at hv'
        · cases hv'
        · rename_i v0 h
          dsimp only at hv' h
          split at hv'
          · injection hv' with hv'
            exact ⟨k, v0, h, by rw [← hv']⟩
          · cases hv'
      · cases hv
    · split
      · refine ⟨_, (adds_writeLine _ _ _ : Adds (g.afterLoop _ _) _ _), ?_⟩
        intro b hb
        simp only [List.mem_singleton] at hb
        subst hb
        simp [paramWords]
      · exact ⟨[], adds_refl _, by simp⟩

/-- The angle a call asks for. -/
def Call.angle : Call K → Option K
  | .rapidMove _ _ _ a _ => a
  | .feed _ _ _ a _ _ => a
  | .feedArc _ _ _ _ _ a _ _ _ => a
  | _ => none

/-- Specification: a word for the A axis. -/
def isAWord (w : Word K) : Prop := w.name = ['A']

/-- The words for A that a call writes. -/
theorem cam_awords (g : Gen K) (c : Call K) (hc : CamCall c) (hm : g.cfg.axisMap = fun _ => none) (hu : g.cfg.altUp = none)
    (hd : g.cfg.altDown = none) :
    ∃ l, Adds g (g.step c).1 l ∧ ∀ b ∈ l, ∀ w ∈ b.words, isAWord w →
      ∃ v, Call.angle c = some v ∧ w.val = .num g.cfg.digits (g.cfg.outVal 'A' (g.cfg.effVal 'A' v)) := by
  have none' : ∀ {l : List (Block K)}, (∀ b ∈ l, ∀ w ∈ b.words, ¬ isAWord w) → ∀ b ∈ l, ∀ w ∈ b.words, isAWord w →
      ∃ v, Call.angle c = some v ∧ w.val = .num g.cfg.digits (g.cfg.outVal 'A' (g.cfg.effVal 'A' v)) :=
    fun h b hb w hw ha => absurd ha (h b hb w hw)
  have hdw : ∀ ms : K, ∀ b ∈ dwellBlocks ms, ∀ w ∈ b.words, ¬ isAWord w := by
    intro ms b hb w hw
    unfold dwellBlocks at hb
    split at hb
    · simp only [List.mem_singleton] at hb
      subst hb
      simp only [List.mem_singleton] at hw
      subst hw
      unfold isAWord; dsimp only; decide
    · simp at hb
  have hnil : ∀ cmd : Str, ∀ w ∈ (⟨cmd, []⟩ : Block K).words, ¬ isAWord w := by intro cmd w hw; simp at hw
  have hone : ∀ (cmd : Str) (k : Char) (v : Val K), k ≠ 'A' → ∀ w ∈ (⟨cmd, [⟨[k], v⟩]⟩ : Block K).words, ¬ isAWord w := by
    intro cmd k v hk w hw
    simp only [List.mem_singleton] at hw
    subst hw
    unfold isAWord
    simpa using hk
  have hup : ∀ (g : Gen K) (r : Bool) (w : Option K) (com : Option Str), g.cfg.axisMap = (fun _ => none) → g.cfg.altUp = none →
      ∃ l, Adds g (g.toolUp r w com) l ∧ ∀ b ∈ l, ∀ w ∈ b.words, ¬ isAWord w := by
    intro g r w com hm hu
    refine ⟨_, adds_toolUp g r w com _ (adds_toolUpMove g r com hu), ?_⟩
    intro b hb
    rcases List.mem_append.1 hb with hb | hb
    · simp only [List.mem_singleton] at hb
      subst hb
      rw [hm]
      exact hone _ 'Z' _ (by decide)
    · simp only [afterRetract, List.mem_append] at hb
      rcases hb with hb | hb
      · split at hb
        · simp only [List.mem_cons] at hb
          rcases hb with rfl | hb
          · exact hnil _
          · exact hdw _ b hb
        · simp at hb
      · exact hdw _ b hb
  have hcmd : ∀ (g1 : Gen K) (cmd : Str) (kw : Kw K), g1.cfg = g.cfg → kw.args 'A' = Call.angle c →
      ∃ l, Adds g1 (g1.command cmd kw) l ∧ ∀ b ∈ l, ∀ w ∈ b.words, isAWord w →
        ∃ v, Call.angle c = some v ∧ w.val = .num g.cfg.digits (g.cfg.outVal 'A' (g.cfg.effVal 'A' v)) := by
    intro g1 cmd kw hg1 hA
    obtain ⟨l, h1, h2⟩ := command_vals g1 cmd kw (by rw [hg1]; exact hm)
    refine ⟨l, h1, ?_⟩
    intro b hb w hw ha
    obtain ⟨k, v, hk, rfl⟩ := h2 b hb w hw
    unfold isAWord at ha
    simp only [List.cons.injEq, and_true] at ha
    subst ha
    rw [hA] at hk
    exact ⟨v, hk, by rw [hg1]⟩
  cases c <;> (try exact hc.elim) <;> dsimp only [Gen.step]
  case rapidMove x y z a com =>
    unfold Gen.rapidMove
    dsimp only
    have hc1 : (if g.rapidLifts then g.toolUp else g).cfg = g.cfg := by
      split
      · exact toolUp_cfg _ _ _ _
      · rfl
    have h1 : ∃ l, Adds g (if g.rapidLifts then g.toolUp else g) l ∧ ∀ b ∈ l, ∀ w ∈ b.words, ¬ isAWord w := by
      split
      · exact hup g _ _ _ hm hu
      · exact ⟨[], adds_refl _, by simp⟩
    obtain ⟨l1, ha, hh⟩ := h1
    generalize (if g.rapidLifts then g.toolUp else g) = g1 at ha hc1 ⊢
    obtain ⟨l2, h2, hi⟩ := hcmd g1 "G00".toList { args := kwOf [('X', x), ('Y', y), ('Z', some (maxZ g1.cfg.zsafe z)), ('A', a)], comment := com }
      hc1 (by simp [kwOf, List.lookup, Call.angle])
    refine ⟨_, ha.trans h2, ?_⟩
    intro b hb
    rcases List.mem_append.1 hb with hb | hb
    · exact none' hh b hb
    · exact hi b hb
  case feed x y z a f com =>
    unfold Gen.feed
    split
    · exact ⟨[], adds_refl g, by simp⟩
    · exact hcmd g _ _ rfl (by simp [kwOf, List.lookup, Call.angle])
  case feedArc cw x y i j a z f com =>
    unfold Gen.feedArc
    split
    · dsimp only
      split
      · exact ⟨[], adds_refl g, by simp⟩
      · exact hcmd g _ _ rfl (by simp [kwOf, List.lookup, Call.angle])
    · exact ⟨[], adds_refl g, by simp⟩
  case toolUp r w com =>
    obtain ⟨l, h1, h2⟩ := hup g r w com hm hu
    exact ⟨l, h1, none' h2⟩
  case toolDown z f w com =>
    unfold Gen.toolDown
    dsimp only
    have h1 : ∃ l, Adds g (if g.cfg.spAuto then g.spindleOn else g) l ∧ ∀ b ∈ l, ∀ w ∈ b.words, ¬ isAWord w := by
      split
      · refine ⟨_, adds_spindleOn g _ _ _ _, ?_⟩
        intro b hb
        simp only [List.mem_cons] at hb
        rcases hb with rfl | hb
        · exact hone _ 'S' _ (by decide)
        · exact hdw _ b hb
      · exact ⟨[], adds_refl _, by simp⟩
    have hc1 : (if g.cfg.spAuto then g.spindleOn else g).cfg = g.cfg := by
      split
      · exact spindleOn_cfg _ _ _ _ _
      · rfl
    obtain ⟨l1, ha, hh⟩ := h1
    generalize (if g.cfg.spAuto then g.spindleOn else g) = g1 at ha hc1 ⊢
    have hmv : g1.toolDownMove z (f.getD g.cfg.zfeed) com = g1.command "G01".toList
        { args := kwOf [('Z', some z), ('F', some (f.getD g.cfg.zfeed))], comment := com } := by
      unfold Gen.toolDownMove; rw [hc1, hd]
    rw [hmv]
    obtain ⟨l2, h2, hh2⟩ := hcmd g1 "G01".toList { args := kwOf [('Z', some z), ('F', some (f.getD g.cfg.zfeed))], comment := com }
      hc1 (by simp [kwOf, List.lookup, Call.angle])
    generalize g1.command "G01".toList { args := kwOf [('Z', some z), ('F', some (f.getD g.cfg.zfeed))], comment := com } = g2 at h2 ⊢
    have h3 := adds_wait ({ g2 with isToolUp := false } : Gen K) (w.getD g.cfg.waitDown)
    refine ⟨_, (ha.trans (b := g1) (c := { g2 with isToolUp := false }) h2).trans h3, ?_⟩
    intro b hb
    rcases List.mem_append.1 hb with hb | hb
    · rcases List.mem_append.1 hb with hb | hb
      · exact none' hh b hb
      · exact hh2 b hb
    · exact none' (hdw _) b hb
  case comment cc s => exact ⟨[], by unfold Adds; rw [(quiet_comment g cc s).blocks]; simp, by simp⟩
  case header t com =>
    refine ⟨_, (C20_header_lines g t com).trans (List.append_assoc _ _ _ |>.trans (List.append_assoc _ _ _)), none' ?_⟩
    intro b hb
    simp only [List.mem_append, List.mem_cons, List.not_mem_nil, or_false] at hb
    rcases hb with (rfl | rfl | rfl | rfl | rfl) | hb | hb
    · exact hnil _
    · exact hnil _
    · exact hnil _
    · exact hnil _
    · exact hnil _
    · unfold blendBlocks at hb
      repeat' split at hb
      all_goals simp only [List.mem_singleton, List.not_mem_nil, List.mem_cons, or_false] at hb
      all_goals subst hb; intro w hw; simp only [List.mem_cons, List.not_mem_nil, or_false] at hw
      all_goals
        first
        | (rcases hw with rfl | rfl <;> (unfold isAWord; dsimp only; decide))
        | (subst hw; unfold isAWord; dsimp only; decide)
    · split at hb
      · simp only [List.mem_singleton] at hb; subst hb; exact hone _ 'F' _ (by decide)
      · simp at hb
  case footer =>
    refine ⟨_, (C20_footer g).1.trans (List.append_assoc _ _ _), none' ?_⟩
    intro b hb
    simp only [List.mem_append] at hb
    rcases hb with hb | hb
    · split at hb
      · simp only [List.mem_singleton] at hb; subst hb; exact hnil _
      · simp at hb
    · simp only [List.mem_singleton] at hb; subst hb; exact hnil _
  case addHeaderComment t => exact ⟨[], by simp [Adds, Gen.addHeaderComment], by simp⟩

/-! ## No turns -/

/-- Calls that do not turn the tool. -/
def NoTurn (c : Call K) : Prop := CamCall c ∧ ∀ v, Call.angle c = some v → v = zero

/-- The angle stays. -/
def Still (s s' : Cam K) : Prop := s.angle = zero → s'.angle = zero ∧ Reach NoTurn s s'

theorem Still.refl (s : Cam K) : Still s s := fun h => ⟨h, Reach.refl _ _⟩
theorem Still.trans {a b c : Cam K} (h : Still a b) (h' : Still b c) : Still a c := by
  intro h0
  obtain ⟨h1, h2⟩ := h h0
  obtain ⟨h3, h4⟩ := h' h1
  exact ⟨h3, h2.trans h4⟩

theorem still_emit (s : Cam K) (c : Call K) (hc : CamCall c) (ha : s.angle = zero → ∀ v, Call.angle c = some v → v = zero) : Still s (s.emit c) :=
  fun h => ⟨by rw [emit_angle]; exact h, reach_emit _ _ ⟨hc, ha h⟩⟩

theorem still_raise (s : Cam K) (er : PyErr) : Still s (s.raise er) := by
  intro h
  refine ⟨?_, reach_raise _ _ _⟩
  unfold Cam.raise
  split <;> exact h

theorem still_foldl {α : Type} (f : Cam K → α → Cam K) (hf : ∀ s a, Still s (f s a)) (l : List α) (s : Cam K) : Still s (l.foldl f s) := by
  induction l generalizing s with
  | nil => exact Still.refl s
  | cons a l ih => exact (hf s a).trans (ih _)

theorem still_feedSeg (e : Env K) (s : Cam K) (seg : Seg K) (d : K) : Still s (s.feedSeg e seg s.angle d) := by
  have hz : ∀ v, some s.angle = some v → s.angle = zero → v = zero := by intro v h h'; injection h with h; rw [← h, h']
  unfold Cam.feedSeg
  dsimp only
  split
  · exact still_emit _ _ trivial fun h v hv => hz v hv h
  · split
    · split
      · exact still_emit _ _ trivial fun h v hv => hz v hv h
      · exact still_emit _ _ trivial fun h v hv => hz v hv h
    · exact still_raise _ _
  · exact Still.refl _

theorem still_genSegment (e : Env K) (o : Opts K) (ho : o.enableTangent = false) (d : K) (s : Cam K) (seg : Seg K) :
    Still s (s.genSegment e o d seg) := by
  unfold Cam.genSegment
  split
  · exact Still.refl _
  · dsimp only
    have ht : ∀ s : Cam K, s.turnTo e o seg = (s, s.angle) := by
      intro s
      unfold Cam.turnTo
      rw [ho]
      simp
    rw [ht]
    dsimp only
    have h1 : Still s { s with dist := s.dist +. seg.length e } := fun h => ⟨h, reach_of_eq _ _ _ rfl rfl id⟩
    have h2 := h1.trans (still_feedSeg e { s with dist := s.dist +. seg.length e } seg (seg.hints.z.getD d))
    split
    · exact h2
    · intro h0
      exact ⟨h0, (h2 h0).2.trans (reach_of_eq _ _ _ rfl rfl id)⟩

theorem still_genRapid (e : Env K) (o : Opts K) (ho : o.enableTangent = false) (s : Cam K) (first : Seg K) : Still s (s.genRapid e o first) := by
  have h1 : Still s (s.rapidTo e o first) := by
    unfold Cam.rapidTo
    split
    · exact Still.refl _
    · dsimp only
      rw [ho]
      exact still_emit _ _ trivial fun h v hv => by injection hv with hv; rw [← hv]; exact h
  unfold Cam.genRapid
  split
  · split
    · exact still_raise _ _
    · exact h1
  · exact h1

theorem still_genPath (e : Env K) (o : Opts K) (ho : o.enableTangent = false) (d : K) (n : Nat) (s : Cam K) (p : Nat × Path K) :
    Still s (s.genPath e o d n p) := by
  unfold Cam.genPath
  split
  · exact Still.refl _
  · split
    · dsimp only
      refine Still.trans ?_ (still_foldl _ (still_genSegment e o ho d) _ _)
      refine Still.trans ?_ (still_emit _ _ trivial fun _ v hv => by cases hv)
      refine Still.trans ?_ (still_emit _ (.toolDown _ none none none) rfl fun _ v hv => by cases hv)
      refine Still.trans ?_ (still_genRapid e o ho _ _)
      exact (still_emit s (.comment .none true) trivial fun _ v hv => by cases hv).trans (still_emit _ _ trivial fun _ v hv => by cases hv)
    · exact Still.refl _

theorem still_depthLoop {e : Env K} {o : Opts K} (ho : o.enableTangent = false) {paths : List (Path K)} {n : Nat} {d : K} {s s' : Cam K} {ds : List K}
    (h : DepthLoop e o paths n d s ds s') : Still s s' := by
  induction h with
  | done => exact Still.refl _
  | raised n d s => exact still_foldl _ (still_genPath e o ho d n) _ _
  | pass n d s ds s' _ _ _ ih => exact (still_foldl _ (still_genPath e o ho d n) _ _).trans ih

theorem still_start (e : Env K) (s : Cam K) (paths : List (Path K)) : Still s (s.start e paths) :=
  ((still_emit s (.addHeaderComment _) trivial fun _ v hv => by cases hv).trans (still_emit _ (.header e.today .none) trivial fun _ v hv => by cases hv)).trans
    (still_emit _ (.toolUp true none none) rfl fun _ v hv => by cases hv)

theorem still_finish (o : Opts K) (s : Cam K) : Still s (s.finish o) := by
  unfold Cam.finish
  dsimp only
  refine Still.trans ?_ (still_emit _ _ trivial fun _ v hv => by cases hv)
  have h1 : Still s (s.emit (.toolUp true none none)) := still_emit s (.toolUp true none none) rfl fun _ v hv => by cases hv
  split
  · exact h1.trans (still_emit _ _ trivial fun _ v hv => by injection hv with hv; exact hv.symm)
  · exact h1

theorem still_generate {e : Env K} {o : Opts K} (ho : o.enableTangent = false) {l : List (Path K)} {s s' : Cam K} {ds : List K}
    (h : Generate e o l s ds s') : Still s s' := by
  cases h with
  | fails er => exact still_raise _ _
  | noStart paths => exact still_start e s paths
  | runs paths ds s1 _ _ hl => exact ((still_start e s paths).trans (still_depthLoop ho hl)).trans (still_finish o s1)

/-- The words for A of a history without turns. -/
theorem run_awords (cs : List (Call K)) (hcs : ∀ c ∈ cs, NoTurn c) (g : Gen K) (hf : Fresh g) :
    ∀ b ∈ blocksOf (g.run cs).out, ∀ w ∈ b.words, isAWord w → w.val = .num g.cfg.digits (g.cfg.outVal 'A' (g.cfg.effVal 'A' zero)) := by
  induction cs using List.reverseRecOn with
  | nil =>
    rw [show g.run [] = g from rfl, hf.out]
    simp [blocksOf]
  | append_singleton cs c ih =>
    have hcs' : ∀ c' ∈ cs, NoTurn c' := fun c' h' => hcs c' (by simp [h'])
    have hinv := trackInv_run cs g (trackInv_fresh g hf) fun c h => (hcs' c h).1.trackable
    obtain ⟨hc, hcfg⟩ := cam_run_cfg cs (fun c h => (hcs' c h).1) g
    have hcc := hcs c (by simp)
    obtain ⟨l, hadd, h1⟩ := cam_awords (g.run cs) c hcc.1 hinv.map hinv.altUp hinv.altDown
    rw [run_append, show ((g.run cs).run [c]) = ((g.run cs).step c).1 from rfl, show blocksOf ((g.run cs).step c).1.out = _ from hadd]
    intro b hb
    rcases List.mem_append.1 hb with hb | hb
    · exact ih hcs' b hb
    · intro w hw ha
      obtain ⟨v, hv, hval⟩ := h1 b hb w hw ha
      rw [hcc.2 v hv, hcfg] at hval
      exact hval

/-- A machine only moves A as the words say. -/
theorem machine_A (v : K) (bs : List (Block K)) (h : ∀ b ∈ bs, ∀ w ∈ b.words, isAWord w → ∃ d, w.val = .num d v) (m : Machine K)
    (hm : m.pos 'A' = none ∨ m.pos 'A' = some v) : (m.run bs).pos 'A' = none ∨ (m.run bs).pos 'A' = some v := by
  induction bs generalizing m with
  | nil => exact hm
  | cons b bs ih =>
    refine ih (fun b' hb' => h b' (by simp [hb'])) (m.exec b) ?_
    have hb := h b (by simp)
    unfold Machine.exec
    split
    · clear ih h
      generalize b.words = ws at hb
      induction ws generalizing m with
      | nil => exact hm
      | cons w ws ihw =>
        refine ihw (m.word w) ?_ fun w' hw' => hb w' (by simp [hw'])
        unfold Machine.word
        split
        · exact .inl rfl
        · rename_i c x hr
          split
          · dsimp only
            by_cases hc : 'A' = c
            · subst hc
              rw [if_pos rfl]
              have hn : isAWord w := by
                unfold Word.read at hr
                split at hr
                · rename_i c' d v' hn hv
                  injection hr with hr
                  injection hr with h1 h2
                  unfold isAWord
                  rw [hn, h1]
                · cases hr
              obtain ⟨d, hd⟩ := hb w (by simp) hn
              unfold Word.read at hr
              rw [show w.name = ['A'] from hn, hd] at hr
              injection hr with hr
              injection hr with h1 h2
              exact .inr (by rw [h2])
            · rw [if_neg hc]; exact hm
          · split
            · exact hm
            · exact hm
    · have h2 : ∀ m' : Machine K, m'.pos = m.pos → (if isStationary b.cmd then m' else m'.lost).pos 'A' = none ∨
          (if isStationary b.cmd then m' else m'.lost).pos 'A' = some v := by
        intro m' hm'
        split
        · rw [hm']; exact hm
        · exact .inl rfl
      refine h2 _ ?_
      split
      · rfl
      · split <;> rfl

end Verif.Cam
