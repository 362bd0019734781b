import Verif.Cam.Props12
import Verif.Cam.Props2

/-!
# C26, continued: the comments of a program
-/

set_option linter.unusedSectionVars false

namespace Verif.Cam
open Verif PyFloat PyTrig Geom GCode

section
variable {K : Type} [PyTrig K]

/-- Specification: the text of a comment. -/
def noteOf : Call K → Option Str
  | .comment (.one t) _ => some t
  | _ => none

/-- Specification: the comments for path number `i` in pass number `n` at depth `d`, with the depth in the units of the program. -/
def pathNotes (e : Env K) (scale : K) (unit : Str) (n : Nat) (d : K) (i : Nat) : List Str :=
  ["Path: ".toList ++ Nat.toDigits 10 i ++ ", pass: ".toList ++ Nat.toDigits 10 n ++ ", depth: ".toList ++ e.fmtG (mul d scale) ++ unit,
   "Start tool path".toList]

theorem segCalls_notes {d : K} {p : Path K} {cs : List (Call K)} (h : SegCalls d p cs) :
    cs.filterMap noteOf = [] ∧ ∀ c ∈ cs, c.isConfig = false := by
  induction h with
  | nil => exact ⟨rfl, by simp⟩
  | cons seg rest turn a c cs hturn hcut _ ih =>
    have ht : turn.filterMap noteOf = [] ∧ ∀ c ∈ turn, c.isConfig = false := by
      rcases hturn with h0 | ⟨a1, h0⟩ <;> rw [h0]
      · exact ⟨rfl, by simp⟩
      · exact ⟨rfl, by simp [Call.isConfig]⟩
    have hc : noteOf c = none ∧ c.isConfig = false := by
      rcases hcut with h0 | ⟨arc, hsh, h0⟩ <;> rw [h0] <;> exact ⟨rfl, rfl⟩
    refine ⟨by rw [List.filterMap_append, ht.1, List.filterMap_cons_none hc.1, ih.1]; rfl, ?_⟩
    intro x hx
    rcases List.mem_append.1 hx with hx | hx
    · exact ht.2 x hx
    · rcases List.mem_cons.1 hx with rfl | hx
      · exact hc.2
      · exact ih.2 x hx

theorem extends_cfg {s s' : Cam K} {cs : List (Call K)} (h : Extends s cs s') (hc : ∀ c ∈ cs, c.isConfig = false) : s'.gen.cfg = s.gen.cfg := by
  rw [h.gen]
  clear h
  generalize s.gen = g
  induction cs generalizing g with
  | nil => rfl
  | cons c cs ih =>
    show ((g.step c).1.run cs).cfg = _
    rw [ih (fun c h => hc c (List.mem_cons_of_mem _ h)), step_cfg g c (hc c (by simp))]

theorem genPath_notes (e : Env K) (o : Opts K) (d : K) (n : Nat) (s : Cam K) (ip : Nat × Path K) (hp : SimplePath ip.2)
    (hsel : Selected o ip = true) (h : (s.genPath e o d n ip).err = none) :
    ∃ cs, (s.genPath e o d n ip).trace = s.trace ++ cs ∧ (s.genPath e o d n ip).gen.cfg = s.gen.cfg ∧
      cs.filterMap noteOf = pathNotes e s.gen.cfg.unitScale s.gen.cfg.gcUnit n d ip.1 := by
  obtain ⟨i, p⟩ := ip
  cases p with
  | nil => simp [Selected] at hsel
  | cons first rest =>
    have hi : o.pathCountStart ≤ (i : Int) := by simpa [Selected] using hsel
    unfold Cam.genPath at h ⊢
    simp only [if_pos hi] at h ⊢
    have h5 := foldl_genSegment_err h
    obtain ⟨cs, hext, hsc, hd⟩ := foldl_genSegment_spec e o d (first :: rest) hp _ h
    have h4 := emit_err_none h5
    have h3 := emit_err_none h4
    obtain ⟨h2, hrap, hrd, -⟩ := genRapid_spec h3
    have h1 := emit_err_none h2
    have h0 := emit_err_none h1
    have E0 := emit_ext (c := .comment .none true) h0
    have E := (((((E0.trans (emit_ext h1)).trans hrap).trans (emit_ext h3)).trans (emit_ext h4)).trans hext)
    obtain ⟨hn, hcf⟩ := segCalls_notes hsc
    refine ⟨_, E.trace, extends_cfg E ?_, ?_⟩
    · intro c hc
      simp only [List.append_assoc, List.mem_append, List.mem_cons, List.not_mem_nil, or_false, List.singleton_append, or_assoc] at hc
      rcases hc with rfl | rfl | rfl | rfl | rfl | hc
      · rfl
      · rfl
      · rfl
      · rfl
      · rfl
      · exact hcf c hc
    · have hcfg : (s.emit (.comment .none true)).gen.cfg = s.gen.cfg := extends_cfg E0 (by simp [Call.isConfig])
      simp only [List.append_assoc, List.singleton_append, List.filterMap_cons, noteOf, List.filterMap_append, hn, List.filterMap_nil]
      unfold pathComment pathNotes
      rw [hcfg]
      rfl

theorem genPass_notes (e : Env K) (o : Opts K) (d : K) (n : Nat) (l : List (Nat × Path K)) (hl : ∀ ip ∈ l, SimplePath ip.2) (s : Cam K)
    (h : (l.foldl (Cam.genPath e o d n) s).err = none) :
    ∃ cs, (l.foldl (Cam.genPath e o d n) s).trace = s.trace ++ cs ∧ (l.foldl (Cam.genPath e o d n) s).gen.cfg = s.gen.cfg ∧
      cs.filterMap noteOf = ((l.filter (Selected o)).map (·.1)).flatMap (pathNotes e s.gen.cfg.unitScale s.gen.cfg.gcUnit n d) := by
  induction l generalizing s with
  | nil => exact ⟨[], by simp, rfl, rfl⟩
  | cons ip l ih =>
    have h' : (l.foldl (Cam.genPath e o d n) (s.genPath e o d n ip)).err = none := h
    obtain ⟨cs, ht, hc, hn⟩ := ih (fun x hx => hl x (by simp [hx])) _ h'
    have h1 := genPass_aux_err h'
    cases hsel : Selected o ip with
    | false =>
      have hs := genPath_skip e o d n s ip hsel
      rw [hs] at ht hc hn
      refine ⟨cs, ?_, ?_, ?_⟩
      · rw [List.foldl_cons, hs]; exact ht
      · rw [List.foldl_cons, hs]; exact hc
      · rw [List.filter_cons_of_neg (by simp [hsel])]; exact hn
    | true =>
      obtain ⟨c1, ht1, hc1, hn1⟩ := genPath_notes e o d n s ip (hl ip (by simp)) hsel h1
      refine ⟨c1 ++ cs, ?_, ?_, ?_⟩
      · rw [List.foldl_cons, ht, ht1, List.append_assoc]
      · rw [List.foldl_cons, hc, hc1]
      · rw [List.filter_cons_of_pos hsel, List.filterMap_append, hn1, hn, hc1, List.map_cons, List.flatMap_cons]

theorem depthLoop_notes {e : Env K} {o : Opts K} {paths : List (Path K)} (hp : ∀ p ∈ paths, SimplePath p)
    {n : Nat} {d : K} {s s' : Cam K} {ds : List K} (h : DepthLoop e o paths n d s ds s') (herr : s'.err = none) :
    ∃ cs, s'.trace = s.trace ++ cs ∧ cs.filterMap noteOf = (ds.zipIdx n).flatMap fun x =>
      (((enumFrom 1 paths).filter (Selected o)).map (·.1)).flatMap (pathNotes e s.gen.cfg.unitScale s.gen.cfg.gcUnit x.2 x.1) := by
  induction h with
  | done n d s _ => exact ⟨[], by simp, rfl⟩
  | raised n d s _ h => rw [herr] at h; simp at h
  | pass n d s ds s' _ hok _ ih =>
    obtain ⟨cs, ht, hn⟩ := ih herr
    obtain ⟨c, ht1, hc1, hn1⟩ := genPass_notes e o d n (enumFrom 1 paths) (fun ip hip => hp _ (enumFrom_mem _ _ _ hip)) s hok
    have hc1 : (s.genPass e o paths d n).gen.cfg = s.gen.cfg := hc1
    have ht1 : (s.genPass e o paths d n).trace = s.trace ++ c := ht1
    refine ⟨c ++ cs, by rw [ht, ht1, List.append_assoc], ?_⟩
    rw [List.filterMap_append, hn1, hn, hc1, List.zipIdx_cons, List.flatMap_cons]

/-- **C26**, comments: in a completed run over lines and arcs, every path that is cut is announced, in each pass, by a comment with its (one-based)
number, the number of the pass and its depth in the units of the program; then its tool path starts, and there are no other comments. -/
theorem C26_comments (e : Env K) (o : Opts K) (l : List (Path K)) (s s' : Cam K) (ds : List K) (paths : List (Path K))
    (h : Generate e o l s ds s') (herr : s'.err = none) (hprep : prepare e o s.gen.cfg.tol l = .ok paths) (hp : ∀ p ∈ paths, SimplePath p) :
    ∃ cs, s'.trace = s.trace ++ cs ∧ cs.filterMap noteOf = (ds.zipIdx 1).flatMap fun x =>
      (((paths.zipIdx 1).filter fun y => decide (o.pathCountStart ≤ (y.2 : Int)) && !y.1.isEmpty).map (·.2)).flatMap
        (pathNotes e s.gen.cfg.unitScale s.gen.cfg.gcUnit x.2 x.1) := by
  cases h with
  | fails er h => exact absurd herr (raise_err _ _)
  | noStart paths h h' => rw [herr] at h'; simp at h'
  | runs paths' ds s1 h hst hloop =>
    rw [hprep, Except.ok.injEq] at h
    subst h
    have h1 := finish_err herr
    obtain ⟨cs, ht, hn⟩ := depthLoop_notes hp hloop h1
    obtain ⟨-, hse, -⟩ := start_spec hst
    obtain ⟨hfe, -, -⟩ := finish_spec (o := o) h1
    have hu : (s.start e paths).gen.cfg.unitScale = s.gen.cfg.unitScale ∧ (s.start e paths).gen.cfg.gcUnit = s.gen.cfg.gcUnit := by
      have : (s.start e paths).gen = s.gen.run (startCalls e paths) := hse.gen
      rw [this]
      have key : ∀ g : Gen K, (g.run (startCalls e paths)).cfg = (g.step (.addHeaderComment (.many [[], "Path count: ".toList ++ natDigits paths.length]))).1.cfg := by
        intro g
        show ((((g.step _).1.step (.header e.today .none)).1.step (.toolUp true none none)).1).cfg = _
        rw [step_cfg _ _ rfl, step_cfg _ _ rfl]
      rw [key]
      exact ⟨rfl, rfl⟩
    refine ⟨startCalls e paths ++ cs ++ finishCalls o, by rw [hfe.trace, ht, hse.trace]; simp [List.append_assoc], ?_⟩
    have h2 : (finishCalls o : List (Call K)).filterMap noteOf = [] := by
      unfold finishCalls
      split <;> rfl
    rw [List.filterMap_append, List.filterMap_append, hn, h2, hu.1, hu.2]
    have h3 : (startCalls e paths).filterMap noteOf = [] := rfl
    rw [h3, List.nil_append, List.append_nil, enumFrom_eq, List.filter_map, List.map_map]
    rfl

/-- The run of `demo_run` has the comments of two passes. -/
example : ∃ ds s', Generate envQ optQ pathsQ (Cam.init demo) ds s' ∧ s'.err = none ∧ ds = [-1/2, -1] := by
  obtain ⟨ds, s', h, h1, _, h2⟩ := demo_run
  exact ⟨ds, s', h, h1, h2⟩

end
end Verif.Cam
