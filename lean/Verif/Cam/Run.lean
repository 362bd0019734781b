import Verif.Cam.Lemmas

/-!
# Structure of a code generation run, continued: segments, paths, passes, the whole run
-/

set_option linter.unusedSectionVars false

namespace Verif.Cam
open Verif PyFloat PyTrig Geom GCode

section
variable {K : Type} [PyTrig K]

/-- Specification: the calls that cut the segments of a path at depth `d`: per segment at most one turn of the A axis
alone, then one feed to its end point. -/
inductive SegCalls (d : K) : Path K → List (Call K) → Prop
  | nil : SegCalls d [] []
  | cons (seg : Seg K) (rest : Path K) (turn : List (Call K)) (a : K) (c : Call K) (cs : List (Call K)) :
      (turn = [] ∨ ∃ a1, turn = [.feed none none none (some a1) none none]) →
      CutCall seg (seg.hints.z.getD d) a c → SegCalls d rest cs → SegCalls d (seg :: rest) (turn ++ c :: cs)

/-- Specification: the calls for one (non-empty) path: comments, rapid move to the start, plunge, cut. -/
def PathCalls (e : Env K) (count pass : Nat) (d : K) (p : Path K) (cs : List (Call K)) : Prop :=
  ∃ first rest g a sc, p = first :: rest ∧
    cs = .comment .none true :: .comment (.one (pathComment e g count pass d)) true ::
      .rapidMove (some first.p1.x) (some first.p1.y) none (some a) none ::
      .toolDown (if first.hints.z.isSome then zero else d) none none none ::
      .comment (.one "Start tool path".toList) true :: sc ∧ SegCalls d p sc

/-- Every segment is a line or an arc. -/
def SimplePath (p : Path K) : Prop := ∀ s ∈ p, s.Simple

/-- Sum of the segment lengths, added in order to `acc` (float addition). -/
def addLengths (e : Env K) (acc : K) (p : Path K) : K := p.foldl (fun a s => a +. s.length e) acc

theorem foldl_genSegment_spec (e : Env K) (o : Opts K) (d : K) (p : Path K) (hp : SimplePath p) (s : Cam K)
    (h : (p.foldl (Cam.genSegment e o d) s).err = none) :
    ∃ cs, Extends s cs (p.foldl (Cam.genSegment e o d) s) ∧ SegCalls d p cs ∧
      (p.foldl (Cam.genSegment e o d) s).dist = addLengths e s.dist p := by
  induction p generalizing s with
  | nil => exact ⟨[], Extends.refl _, .nil, rfl⟩
  | cons seg p ih =>
    have h' : (p.foldl (Cam.genSegment e o d) (s.genSegment e o d seg)).err = none := h
    have h1 := foldl_genSegment_err h'
    obtain ⟨-, cs1, c, a1, ht, hc, hext, hd, -, -⟩ := genSegment_spec e o d s seg (hp seg (by simp)) h1
    obtain ⟨cs2, hext2, hsc, hd2⟩ := ih (fun x hx => hp x (by simp [hx])) _ h'
    refine ⟨cs1 ++ c :: cs2, ?_, ?_, ?_⟩
    · have := hext.trans hext2
      rw [List.append_assoc] at this
      exact this
    · refine SegCalls.cons seg p cs1 _ c cs2 ?_ hc hsc
      rcases ht with ⟨h0, -⟩ | h0
      · exact Or.inl h0
      · exact Or.inr ⟨_, h0⟩
    · show (p.foldl (Cam.genSegment e o d) (s.genSegment e o d seg)).dist = _
      rw [hd2, hd]; rfl

/-- Is the `i`-th path cut at all? -/
def Selected (o : Opts K) (ip : Nat × Path K) : Bool := decide (o.pathCountStart ≤ (ip.1 : Int)) && !ip.2.isEmpty

theorem genPath_err {e : Env K} {o : Opts K} {d : K} {n : Nat} {s : Cam K} {ip : Nat × Path K}
    (h : (s.genPath e o d n ip).err = none) : s.err = none := by
  unfold Cam.genPath at h
  split at h
  · exact h
  · split at h
    · have h1 := foldl_genSegment_err h
      have h2 := emit_err_none h1
      have h3 := emit_err_none h2
      have h4 := (genRapid_spec h3).1
      exact emit_err_none (emit_err_none h4)
    · exact h

theorem genPath_skip (e : Env K) (o : Opts K) (d : K) (n : Nat) (s : Cam K) (ip : Nat × Path K)
    (h : Selected o ip = false) : s.genPath e o d n ip = s := by
  unfold Cam.genPath
  split
  · rfl
  · rename_i f r hf
    simp only [Selected, hf, List.isEmpty_cons, Bool.not_false, Bool.and_true, decide_eq_false_iff_not] at h
    rw [if_neg h]

theorem genPath_spec (e : Env K) (o : Opts K) (d : K) (n : Nat) (s : Cam K) (ip : Nat × Path K) (hp : SimplePath ip.2)
    (hsel : Selected o ip = true) (h : (s.genPath e o d n ip).err = none) :
    ∃ cs, Extends s cs (s.genPath e o d n ip) ∧ PathCalls e ip.1 n d ip.2 cs ∧
      (s.genPath e o d n ip).dist = addLengths e s.dist ip.2 := by
  obtain ⟨i, p⟩ := ip
  cases p with
  | nil => simp [Selected] at hsel
  | cons first rest =>
    have hi : o.pathCountStart ≤ (i : Int) := by simpa [Selected] using hsel
    unfold Cam.genPath at h ⊢
    simp only [if_pos hi] at h ⊢
    have h5 := foldl_genSegment_err h
    obtain ⟨cs, hext, hsc, hd⟩ := foldl_genSegment_spec e o d (first :: rest) hp _ h
    have h4 := emit_err_none h5
    have h3 := emit_err_none h4
    obtain ⟨h2, hrap, hrd, -⟩ := genRapid_spec h3
    have h1 := emit_err_none h2
    have h0 := emit_err_none h1
    have E := ((((((emit_ext (c := .comment .none true) h0).trans (emit_ext h1)).trans hrap).trans (emit_ext h3)).trans
      (emit_ext h4)).trans hext)
    refine ⟨_, E, ⟨first, rest, _, _, cs, rfl, rfl, hsc⟩, ?_⟩
    rw [hd]
    unfold Cam.plunge
    rw [emit_dist, emit_dist, hrd, emit_dist, emit_dist]

/-- Specification: the calls of one pass over enumerated paths. -/
inductive PassCalls (e : Env K) (o : Opts K) (n : Nat) (d : K) : List (Nat × Path K) → List (Call K) → Prop
  | nil : PassCalls e o n d [] []
  | skip (ip : Nat × Path K) (l : List (Nat × Path K)) (cs : List (Call K)) : Selected o ip = false →
      PassCalls e o n d l cs → PassCalls e o n d (ip :: l) cs
  | cut (ip : Nat × Path K) (l : List (Nat × Path K)) (c cs : List (Call K)) : Selected o ip = true →
      PathCalls e ip.1 n d ip.2 c → PassCalls e o n d l cs → PassCalls e o n d (ip :: l) (c ++ cs)

/-- The paths cut in a pass, in order. -/
def chosen (o : Opts K) (paths : List (Path K)) : List (Path K) := ((enumFrom 1 paths).filter (Selected o)).map (·.2)

theorem genPass_aux_err {e : Env K} {o : Opts K} {d : K} {n : Nat} {l : List (Nat × Path K)} {s : Cam K}
    (h : (l.foldl (Cam.genPath e o d n) s).err = none) : s.err = none := by
  induction l generalizing s with
  | nil => exact h
  | cons ip l ih => exact genPath_err (ih h)

theorem genPass_aux (e : Env K) (o : Opts K) (d : K) (n : Nat) (l : List (Nat × Path K))
    (hl : ∀ ip ∈ l, SimplePath ip.2) (s : Cam K) (h : (l.foldl (Cam.genPath e o d n) s).err = none) :
    ∃ cs, Extends s cs (l.foldl (Cam.genPath e o d n) s) ∧ PassCalls e o n d l cs ∧
      (l.foldl (Cam.genPath e o d n) s).dist
        = ((l.filter (Selected o)).map (·.2)).foldl (addLengths e) s.dist := by
  induction l generalizing s with
  | nil => exact ⟨[], Extends.refl _, .nil, rfl⟩
  | cons ip l ih =>
    have h' : (l.foldl (Cam.genPath e o d n) (s.genPath e o d n ip)).err = none := h
    obtain ⟨cs, hext, hpc, hd⟩ := ih (fun x hx => hl x (by simp [hx])) _ h'
    have h1 := genPass_aux_err h'
    cases hsel : Selected o ip with
    | false =>
      refine ⟨cs, ?_, .skip ip l cs hsel hpc, ?_⟩
      · show Extends s cs (l.foldl (Cam.genPath e o d n) (s.genPath e o d n ip))
        have := genPath_skip e o d n s ip hsel
        rw [this] at hext ⊢; exact hext
      · show (l.foldl (Cam.genPath e o d n) (s.genPath e o d n ip)).dist = _
        rw [hd, genPath_skip e o d n s ip hsel, List.filter_cons_of_neg (by simp [hsel])]
    | true =>
      obtain ⟨c, hext1, hpath, hd1⟩ := genPath_spec e o d n s ip (hl ip (by simp)) hsel h1
      refine ⟨c ++ cs, hext1.trans hext, .cut ip l c cs hsel hpath hpc, ?_⟩
      show (l.foldl (Cam.genPath e o d n) (s.genPath e o d n ip)).dist = _
      rw [hd, hd1, List.filter_cons_of_pos hsel]
      rfl

theorem enumFrom_mem {α : Type} (n : Nat) (l : List α) (x : Nat × α) (h : x ∈ enumFrom n l) : x.2 ∈ l := by
  induction l generalizing n with
  | nil => simp [enumFrom] at h
  | cons a l ih =>
    simp only [enumFrom, List.mem_cons] at h
    rcases h with h | h
    · subst h; simp
    · exact List.mem_cons_of_mem _ (ih _ h)

theorem genPass_spec (e : Env K) (o : Opts K) (paths : List (Path K)) (hp : ∀ p ∈ paths, SimplePath p) (d : K) (n : Nat)
    (s : Cam K) (h : (s.genPass e o paths d n).err = none) :
    ∃ cs, Extends s cs (s.genPass e o paths d n) ∧ PassCalls e o n d (enumFrom 1 paths) cs ∧
      (s.genPass e o paths d n).dist = (chosen o paths).foldl (addLengths e) s.dist :=
  genPass_aux e o d n _ (fun ip hip => hp _ (enumFrom_mem _ _ _ hip)) s h

/-- Specification: the calls of consecutive passes at the depths `ds`, numbered from `n`. -/
inductive LoopCalls (e : Env K) (o : Opts K) (paths : List (Path K)) : Nat → List K → List (Call K) → Prop
  | nil (n : Nat) : LoopCalls e o paths n [] []
  | cons (n : Nat) (d : K) (ds : List K) (c cs : List (Call K)) : PassCalls e o n d (enumFrom 1 paths) c →
      LoopCalls e o paths (n + 1) ds cs → LoopCalls e o paths n (d :: ds) (c ++ cs)

theorem depthLoop_spec {e : Env K} {o : Opts K} {paths : List (Path K)} (hp : ∀ p ∈ paths, SimplePath p)
    {n : Nat} {d : K} {s s' : Cam K} {ds : List K} (h : DepthLoop e o paths n d s ds s') (herr : s'.err = none) :
    s.err = none ∧ ∃ cs, Extends s cs s' ∧ LoopCalls e o paths n ds cs ∧
      s'.dist = ds.foldl (fun acc _ => (chosen o paths).foldl (addLengths e) acc) s.dist := by
  induction h with
  | done n d s _ => exact ⟨herr, [], Extends.refl _, .nil n, rfl⟩
  | raised n d s _ h => rw [herr] at h; simp at h
  | pass n d s ds s' _ hok _ ih =>
    obtain ⟨-, cs, hext, hlc, hd⟩ := ih herr
    obtain ⟨c, hext1, hpc, hd1⟩ := genPass_spec e o paths hp d n s hok
    refine ⟨genPass_aux_err hok, c ++ cs, hext1.trans hext, .cons n d ds c cs hpc hlc, ?_⟩
    rw [hd, hd1]; rfl

/-- The calls made before the depth loop. -/
def startCalls (e : Env K) (paths : List (Path K)) : List (Call K) :=
  [.addHeaderComment (.many [[], "Path count: ".toList ++ natDigits paths.length]), .header e.today .none,
    .toolUp true none none]

/-- The calls made after the depth loop. -/
def finishCalls (o : Opts K) : List (Call K) :=
  .toolUp true none none ::
    ((if o.homeWhenDone then [.rapidMove (some zero) (some zero) none (some zero) none] else []) ++ [.footer])

theorem start_spec {e : Env K} {s : Cam K} {paths : List (Path K)} (h : (s.start e paths).err = none) :
    s.err = none ∧ Extends s (startCalls e paths) (s.start e paths) ∧ (s.start e paths).dist = s.dist := by
  unfold Cam.start at h ⊢
  have h2 := emit_err_none h
  have h1 := emit_err_none h2
  have h0 := emit_err_none h1
  refine ⟨h0, ((emit_ext h0).trans (emit_ext h1)).trans (emit_ext h2), ?_⟩
  dsimp only
  rw [emit_dist, emit_dist, emit_dist]

theorem finish_spec {o : Opts K} {s : Cam K} (h : s.err = none) :
    Extends s (finishCalls o) (s.finish o) ∧ (s.finish o).dist = s.dist ∧ (s.finish o).err = none := by
  unfold Cam.finish finishCalls
  have h1 : (s.emit (.toolUp true none none)).err = none := by rw [emit_eq h]; rfl
  cases o.homeWhenDone with
  | false =>
    simp only [Bool.false_eq_true, if_false, List.nil_append]
    refine ⟨(emit_ext h).trans (emit_ext h1), by rw [emit_dist, emit_dist], ?_⟩
    rw [emit_eq h1]; rfl
  | true =>
    simp only [if_true, List.cons_append, List.nil_append]
    have h2 : ((s.emit (.toolUp true none none)).emit
        (.rapidMove (some zero) (some zero) none (some zero) none)).err = none := by rw [emit_eq h1]; rfl
    refine ⟨((emit_ext h).trans (emit_ext h1)).trans (emit_ext h2), by rw [emit_dist, emit_dist, emit_dist], ?_⟩
    rw [emit_eq h2]; rfl

theorem finish_err {o : Opts K} {s : Cam K} (h : (s.finish o).err = none) : s.err = none := by
  unfold Cam.finish at h
  have h1 := emit_err_none h
  split at h1
  · exact emit_err_none (emit_err_none h1)
  · exact emit_err_none h1

/-- Everything a run of `generate_gcode` that raises nothing does. -/
theorem generate_spec {e : Env K} {o : Opts K} {l : List (Path K)} {s s' : Cam K} {ds : List K}
    (hrun : Generate e o l s ds s') (herr : s'.err = none) :
    ∃ paths, prepare e o s.gen.cfg.tol l = .ok paths ∧
      ((∀ p ∈ paths, SimplePath p) → ∃ cs, LoopCalls e o paths 1 ds cs ∧
        Extends s (startCalls e paths ++ cs ++ finishCalls o) s' ∧
        s'.dist = ds.foldl (fun acc _ => (chosen o paths).foldl (addLengths e) acc) s.dist) := by
  cases hrun with
  | fails er h => exact absurd herr (raise_err _ _)
  | noStart paths h h' => rw [herr] at h'; simp at h'
  | runs paths ds s1 h hst hloop =>
    refine ⟨paths, h, fun hp => ?_⟩
    have h1 := finish_err herr
    obtain ⟨-, cs, hext, hlc, hd⟩ := depthLoop_spec hp hloop h1
    obtain ⟨-, hse, hsd⟩ := start_spec hst
    obtain ⟨hfe, hfd, -⟩ := finish_spec (o := o) h1
    refine ⟨cs, hlc, (hse.trans hext).trans hfe, ?_⟩
    rw [hfd, hd, hsd]

end
end Verif.Cam
