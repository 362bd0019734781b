import Verif.Cam.Props13

/-!
# C101–C109: programs and settings of `Tcnc`
-/

set_option linter.unusedSectionVars false

namespace Verif.Cam
open Verif PyFloat PyTrig Geom GCode

section
variable {K : Type} [PyTrig K]

/-! ## C101: rapid traverses and the end of the program -/

/-- **C101**: for every document, every settings and every list of paths, in the program `Tcnc` writes (however the run ends) each line
that traverses X or Y at rapid speed starts and ends with the machine's Z at the image of a height at or above the safe height. -/
theorem C101_traverses (env : TEnv K) (doc : DocInfo K) (e : Env K) (o : TOpts K) (l : List (Path K)) (ds : List K) (s : Cam K)
    (h : Generated env doc e o l ds s) (pre : List (Block K)) (b : Block K) (post : List (Block K))
    (hb : blocksOf s.gen.out = pre ++ b :: post) (hcmd : b.cmd = "G00".toList) (hxy : movesXY b) :
    (∃ z, (Machine.off.run pre).pos 'Z' = some (specImage s.gen.cfg 'Z' z) ∧ AtSafe o.zSafe z) ∧
    (∃ z, (Machine.off.run (pre ++ [b])).pos 'Z' = some (specImage s.gen.cfg 'Z' z) ∧ AtSafe o.zSafe z) := by
  obtain ⟨g, hg, hgen⟩ := h
  obtain ⟨cs, hext, hcs⟩ := generate_calls hgen
  have hs : s.gen = g.run cs := hext.2
  obtain ⟨hc, hcfg⟩ := cam_run_cfg cs hcs g
  rw [hs] at hb
  have := run_traverse g (initGcode_fresh hg) cs hcs pre b post hb hcmd hxy
  rw [(initGcode_zsafe hg).1] at this
  have hi : ∀ v, specImage s.gen.cfg 'Z' v = specImage g.cfg 'Z' v := by intro v; rw [hs, hcfg]; rfl
  simp only [hi]
  exact this

/-- The generator at the end of a completed program has raised the tool. -/
theorem generate_last_Z {e : Env K} {o : Opts K} {l : List (Path K)} {s s' : Cam K} {ds : List K} (h : Generate e o l s ds s')
    (herr : s'.err = none) (ho : o.homeWhenDone = false) (ht : TrackInv s.gen) :
    ∃ cs, (∀ c ∈ cs, CamCall c) ∧ s'.gen = s.gen.run cs ∧ s'.gen.last 'Z' = some s'.gen.cfg.zsafe := by
  cases h with
  | fails er h => exact absurd herr (raise_err _ _)
  | noStart paths h h' => rw [herr] at h'; simp at h'
  | runs paths ds s1 hp hst hl =>
    have h1 := finish_err herr
    obtain ⟨cs, hext, hcs⟩ := (reach_start e s paths).trans (reach_depthLoop hl)
    have hg1 : s1.gen = s.gen.run cs := hext.2
    have ht1 : TrackInv s1.gen := by rw [hg1]; exact trackInv_run cs _ ht fun c hc => (hcs c hc).trackable
    have hfin : (s1.finish o).gen = ((s1.gen.step (.toolUp true none none)).1.step .footer).1 := by
      unfold Cam.finish
      rw [ho]
      dsimp only
      rw [if_neg (by simp), emit_eq h1]
      rw [emit_eq (by rfl)]
    refine ⟨cs ++ [.toolUp true none none, .footer], ?_, ?_, ?_⟩
    · intro c hc
      simp only [List.mem_append, List.mem_cons, List.not_mem_nil, or_false] at hc
      rcases hc with hc | rfl | rfl
      · exact hcs c hc
      · trivial
      · trivial
    · rw [hfin, run_append, ← hg1]; rfl
    · rw [hfin]
      have ht2 : TrackInv (s1.gen.step (.toolUp true none none)).1 := trackInv_step _ _ ht1 trivial
      have hk := keeps_footer (s1.gen.step (.toolUp true none none)).1 ht2.reset
      have hlast : ((s1.gen.step (.toolUp true none none)).1.step .footer).1.last = (s1.gen.step (.toolUp true none none)).1.last := by
        show (Gen.footer _).last = _
        unfold Gen.footer
        dsimp only
        rw [show (Gen.writeRaw (s1.gen.step (.toolUp true none none)).1 ['\n']).offsetReset = false from ht2.reset]
        rfl
      have hz : (s1.gen.step (.toolUp true none none)).1.last 'Z' = some s1.gen.cfg.zsafe := by
        show (s1.gen.toolUp true none none).last 'Z' = _
        rw [toolUp_Z _ _ _ _ ht1.altUp]
        exact upd_same _ _ _
      rw [hlast, hz]
      have hkc : ((s1.gen.step (.toolUp true none none)).1.step .footer).1.cfg = (s1.gen.step (.toolUp true none none)).1.cfg := hk.cfg
      rw [hkc]
      show _ = some (s1.gen.toolUp true none none).cfg.zsafe
      rw [toolUp_cfg]

/-- **C101**, the end: a completed program leaves the machine's Z at the image of the safe height. -/
theorem C101_ends_raised (env : TEnv K) (doc : DocInfo K) (e : Env K) (o : TOpts K) (l : List (Path K)) (ds : List K) (s : Cam K)
    (h : Generated env doc e o l ds s) (herr : s.err = none) :
    s.gen.machine.pos 'Z' = some (specImage s.gen.cfg 'Z' o.zSafe) := by
  obtain ⟨g, hg, hgen⟩ := h
  have hf := initGcode_fresh hg
  obtain ⟨cs, hcs, hs, hz⟩ := generate_last_Z hgen herr rfl (trackInv_fresh _ hf)
  have hs' : s.gen = g.run cs := hs
  obtain ⟨hc, hcfg⟩ := cam_run_cfg cs hcs g
  have htr := C01_position_tracking_partial g hf cs (fun c hc => (hcs c hc).trackable) 'Z' (by simp) (some o.zSafe) (by
    rw [← hs']
    have e1 : upperS ['Z'] = ['Z'] ∧ 'Z' ∈ orderedParams := by decide
    simp only [Gen.position, e1.1, e1.2, if_true]
    rw [hz, hs', hcfg]
    exact congrArg _ (congrArg _ (initGcode_zsafe hg).1))
  rw [← hs'] at htr
  exact htr

/-! ## C109: the spindle -/

/-- **C109**, the part that fails: the dialog offers to start the spindle at the start of the program, but with every setting other than
"on before every path" the program contains no spindle start at all. -/
theorem C109_refuted_start (env : TEnv K) (doc : DocInfo K) (e : Env K) (o : TOpts K) (l : List (Path K)) (ds : List K) (s : Cam K)
    (h : Generated env doc e o l ds s) (hm : o.spindleMode ≠ "path".toList) : ∀ b ∈ blocksOf s.gen.out, ¬ startsSpindle b := by
  obtain ⟨g, hg, hgen⟩ := h
  obtain ⟨cs, hext, hcs⟩ := generate_calls hgen
  have hs : s.gen = g.run cs := hext.2
  have hf := initGcode_fresh hg
  have hsp : g.cfg.spAuto = false := by rw [(initGcode_zsafe hg).2]; simpa using hm
  rw [hs]
  clear hs hext hgen
  induction cs using List.reverseRecOn with
  | nil =>
    rw [show g.run [] = g from rfl, hf.out]
    simp [blocksOf]
  | append_singleton cs c ih =>
    have hcs' : ∀ c' ∈ cs, CamCall c' := fun c' h' => hcs c' (by simp [h'])
    have hinv := trackInv_run cs g (trackInv_fresh g hf) fun c h => (hcs' c h).trackable
    obtain ⟨hc, hcfg⟩ := cam_run_cfg cs hcs' g
    obtain ⟨l, hadd, -, hl⟩ := cam_adds (g.run cs) c (hcs c (by simp)) hinv.map hinv.altUp hinv.altDown
    rw [run_append, show ((g.run cs).run [c]) = ((g.run cs).step c).1 from rfl, show blocksOf ((g.run cs).step c).1.out = _ from hadd]
    intro b hb
    rcases List.mem_append.1 hb with hb | hb
    · exact ih hcs' b hb
    · exact hl (by rw [hcfg]; exact hsp) b hb

/-- **C109**, what holds: with the spindle on before every path, for every document, other settings and paths, each line of the program that
cuts (a feed in X or Y) is executed with the spindle on.  Missing: the mode "on at start" (`C109_refuted_start`). -/
theorem C109_cuts_spinning_partial (env : TEnv K) (doc : DocInfo K) (e : Env K) (o : TOpts K) (l : List (Path K)) (ds : List K) (s : Cam K)
    (h : Generated env doc e o l ds s) (hm : o.spindleMode = "path".toList) : CutsSpinning (blocksOf s.gen.out) := by
  obtain ⟨g, hg, hgen⟩ := h
  have hf := initGcode_fresh hg
  refine (spun_generate hgen ⟨?_, trackInv_fresh g hf, ?_⟩).cuts
  · show CutsSpinning (blocksOf g.out)
    rw [hf.out]
    intro pre b post hp
    simp [blocksOf] at hp
  · show g.cfg.spAuto = true
    rw [(initGcode_zsafe hg).2]
    simpa using hm

end

end Verif.Cam
