import Verif.Cam.Run

/-!
# C22–C26, C35: the depth loop, the passes and the travel accounting of `generate_gcode`
-/

set_option linter.unusedSectionVars false

namespace Verif.Cam
open Verif PyFloat PyTrig Geom GCode

section
variable {K : Type} [Field K] [LinearOrder K] [IsStrictOrderedRing K] [PyTrig K] [ExactFloat K]

/-! ## The loop condition -/

theorem nextDepth_neg (o : Opts K) (step tol d : K) (h : step < 0) : nextDepth o step tol d = d + step := by
  unfold nextDepth
  py
  rw [if_neg]
  rintro ⟨-, h2⟩
  have := abs_nonneg (o.zDepth - d)
  linarith

theorem nextDepth_nonneg (o : Opts K) (step tol d : K) (h : 0 ≤ step) (hd : o.zDepth ≤ d) :
    o.zDepth ≤ nextDepth o step tol d := by
  unfold nextDepth
  py
  split
  · exact le_refl _
  · linarith

theorem firstDepth_ge (o : Opts K) (step : K) : o.zDepth ≤ firstDepth o step := by
  unfold firstDepth
  py
  split
  · exact le_refl _
  · rename_i h; push Not at h; exact h.2

/-- Specification: the step in force: `z_step`, but `z_depth` (a single pass) if `z_step` is within the tolerance of zero. -/
def stepInForce (eps zDepth zStep : K) : K := if |zStep| < eps then zDepth else zStep

theorem effStep_eq (e : Env K) (o : Opts K) : effStep e o = stepInForce e.eps o.zDepth o.zStep := by
  unfold effStep stepInForce isZero
  py
  simp only [abs_lt, and_comm]

/-- Every number is below some natural number. -/
theorem exists_nat_gt' (x : K) : ∃ n : Nat, x < n := by
  obtain ⟨m, -, hlo, hhi⟩ := ExactFloat.floor_spec (K := K) x
  refine ⟨(m + 1).toNat, lt_of_lt_of_le hhi ?_⟩
  have : (m + 1 : Int) ≤ ((m + 1).toNat : Int) := Int.self_le_toNat _
  exact_mod_cast this

/-- With a negative step the loop terminates from every state. -/
theorem depthLoop_terminates (e : Env K) (o : Opts K) (paths : List (Path K)) (hs : effStep e o < 0) (m : Nat) :
    ∀ (n : Nat) (d : K) (s : Cam K), d + m * effStep e o < o.zDepth → ∃ ds s', DepthLoop e o paths n d s ds s' := by
  induction m with
  | zero =>
    intro n d s h
    refine ⟨[], s, .done n d s ?_⟩
    py
    push_cast at h
    linarith
  | succ m ih =>
    intro n d s h
    by_cases hd : o.zDepth ≤ d
    · have hd' : (o.zDepth <=. d) = true := by py; exact hd
      cases herr : (s.genPass e o paths d n).err with
      | some er => exact ⟨_, _, .raised n d s hd' (by rw [herr]; rfl)⟩
      | none =>
        obtain ⟨ds, s', h'⟩ := ih (n + 1) (d + effStep e o) (s.genPass e o paths d n) (by push_cast at h; linarith)
        refine ⟨_, _, .pass n d s ds s' hd' herr ?_⟩
        rw [nextDepth_neg _ _ _ _ hs]
        exact h'
    · refine ⟨[], s, .done n d s ?_⟩
      py; exact hd

/-- A run that raises nothing with a step that is not negative never ends. -/
theorem depthLoop_diverges {e : Env K} {o : Opts K} {paths : List (Path K)} (hs : ¬ effStep e o < 0)
    {n : Nat} {d : K} {s s' : Cam K} {ds : List K} (h : DepthLoop e o paths n d s ds s') (hd : o.zDepth ≤ d) :
    s'.err.isSome := by
  push Not at hs
  induction h with
  | done n d s h => py at h; exact absurd hd h
  | raised n d s _ h => exact h
  | pass n d s ds s' h0 hok _ ih => exact ih (nextDepth_nonneg _ _ _ _ hs hd)

/-! ## C22 -/

/-- **C22**, the part that holds: with a negative effective step (`z_step`, or `z_depth` when `z_step` is close to zero),
`generate_gcode` terminates for every path list and from every state.  Missing: steps that are not negative, for which
it is false (`C22_refuted_nonnegative`). -/
theorem C22_terminates_partial (e : Env K) (o : Opts K) (l : List (Path K)) (s : Cam K) (hs : stepInForce e.eps o.zDepth o.zStep < 0) :
    ∃ ds s', Generate e o l s ds s' := by
  rw [← effStep_eq] at hs
  cases hp : prepare e o s.gen.cfg.tol l with
  | error er => exact ⟨_, _, .fails er hp⟩
  | ok paths =>
    cases hst : (s.start e paths).err with
    | some er => exact ⟨_, _, .noStart paths hp (by rw [hst]; rfl)⟩
    | none =>
      obtain ⟨m, hm⟩ := exists_nat_gt' ((o.zDepth - firstDepth o (effStep e o)) / effStep e o)
      have : firstDepth o (effStep e o) + m * effStep e o < o.zDepth := by
        rw [div_lt_iff_of_neg hs] at hm
        linarith
      obtain ⟨ds, s', h⟩ := depthLoop_terminates e o paths hs m 1 _ (s.start e paths) this
      exact ⟨ds, _, .runs paths ds s' hp hst h⟩

/-- **C22** is refuted: with an effective step that is not negative — in particular with the defaults
`z_depth = z_step = 0` — every run that ends, ends in an exception: no run completes. -/
theorem C22_refuted_nonnegative (e : Env K) (o : Opts K) (l : List (Path K)) (s : Cam K) (hs : ¬ stepInForce e.eps o.zDepth o.zStep < 0) :
    ¬ ∃ ds s', Generate e o l s ds s' ∧ s'.err = none := by
  rw [← effStep_eq] at hs
  rintro ⟨ds, s', h, herr⟩
  cases h with
  | fails er h => exact raise_err _ _ herr
  | noStart paths h h' => rw [herr] at h'; simp at h'
  | runs paths ds s1 h hst hloop =>
    have := depthLoop_diverges hs hloop (firstDepth_ge _ _)
    rw [finish_err herr] at this
    simp at this

/-! ## C23, C24, C25 -/

/-- The depths of a run: from `d` on, each pass `step` lower, as long as the depth is not below `zDepth`. -/
theorem depthLoop_depths {e : Env K} {o : Opts K} {paths : List (Path K)} (hs : effStep e o < 0)
    {n : Nat} {d : K} {s s' : Cam K} {ds : List K} (h : DepthLoop e o paths n d s ds s') :
    ∀ i (hi : i < ds.length), ds[i] = d + i * effStep e o ∧ o.zDepth ≤ ds[i] := by
  induction h with
  | done n d s _ => intro i hi; simp at hi
  | raised n d s h _ =>
    intro i hi
    simp only [List.length_cons, List.length_nil, Nat.zero_add, Nat.lt_one_iff] at hi
    subst hi
    py at h
    exact ⟨by simp, h⟩
  | pass n d s ds s' h0 _ _ ih =>
    intro i hi
    cases i with
    | zero => py at h0; exact ⟨by simp, h0⟩
    | succ i =>
      have := ih i (by simpa using hi)
      rw [nextDepth_neg _ _ _ _ hs] at this
      refine ⟨?_, this.2⟩
      rw [List.getElem_cons_succ, this.1]
      push_cast; ring

theorem depthLoop_count {e : Env K} {o : Opts K} {paths : List (Path K)} (hs : effStep e o < 0)
    {n : Nat} {d : K} {s s' : Cam K} {ds : List K} (h : DepthLoop e o paths n d s ds s') (herr : s'.err = none) :
    d + ds.length * effStep e o < o.zDepth := by
  induction h with
  | done n d s h => py at h; push Not at h; simpa using h
  | raised n d s _ h => rw [herr] at h; simp at h
  | pass n d s ds s' h0 _ _ ih =>
    have := ih herr
    rw [nextDepth_neg _ _ _ _ hs] at this
    simp only [List.length_cons]; push_cast; linarith

theorem generate_loop {e : Env K} {o : Opts K} {l : List (Path K)} {s s' : Cam K} {ds : List K}
    (h : Generate e o l s ds s') (hne : ds ≠ []) :
    ∃ paths s1, DepthLoop e o paths 1 (firstDepth o (effStep e o)) (s.start e paths) ds s1 ∧ s' = s1.finish o := by
  cases h with
  | fails er h => simp at hne
  | noStart paths h h' => simp at hne
  | runs paths ds s1 h hst hloop => exact ⟨paths, s1, hloop, rfl⟩

theorem generate_depth (e : Env K) (o : Opts K) (l : List (Path K)) (s s' : Cam K) (ds : List K)
    (h : Generate e o l s ds s') : ∀ d ∈ ds, o.zDepth ≤ d := by
  by_cases hne : ds = []
  · subst hne; simp
  obtain ⟨paths, s1, hl, -⟩ := generate_loop h hne
  have : ∀ {n d s ds s'}, DepthLoop e o paths n d s ds s' → ∀ x ∈ ds, o.zDepth ≤ x := by
    intro n d s ds s' h
    induction h with
    | done n d s _ => simp
    | raised n d s h _ => intro x hx; py at h; simp at hx; subst hx; exact h
    | pass n d s ds s' h0 _ _ ih =>
      intro x hx
      rcases List.mem_cons.1 hx with rfl | hx
      · py at h0; exact h0
      · exact ih x hx
  exact this hl

/-- Specification: the Z coordinate a call commands for cutting. -/
def cutZ : Call K → Option K
  | .toolDown z _ _ _ => some z
  | .feed _ _ z _ _ _ => z
  | .feedArc _ _ _ _ _ _ z _ _ => z
  | _ => none

theorem segCalls_cutZ {d : K} {p : Path K} {cs : List (Call K)} (h : SegCalls d p cs) (c : Call K) (hc : c ∈ cs) (z : K)
    (hz : cutZ c = some z) : z = d ∨ ∃ seg ∈ p, seg.hints.z = some z := by
  induction h with
  | nil => simp at hc
  | cons seg rest turn a c0 cs hturn hcut _ ih =>
    rw [List.mem_append, List.mem_cons] at hc
    rcases hc with hc | rfl | hc
    · rcases hturn with h0 | ⟨a1, h0⟩
      · rw [h0] at hc; simp at hc
      · rw [h0] at hc; simp at hc; subst hc; simp [cutZ] at hz
    · have : z = seg.hints.z.getD d := by
        rcases hcut with h0 | ⟨arc, -, h0⟩ <;> rw [h0] at hz <;> simp only [cutZ, Option.some.injEq] at hz <;>
          exact hz.symm
      cases hs : seg.hints.z with
      | none => rw [hs] at this; exact Or.inl this
      | some z' => rw [hs] at this; exact Or.inr ⟨seg, by simp, by rw [hs, this]; rfl⟩
    · rcases ih hc with h | ⟨sg, hm, hh⟩
      · exact Or.inl h
      · exact Or.inr ⟨sg, by simp [hm], hh⟩

theorem passCalls_cutZ {e : Env K} {o : Opts K} {n : Nat} {d : K} {l : List (Nat × Path K)} {cs : List (Call K)}
    (h : PassCalls e o n d l cs) (hl : ∀ ip ∈ l, ∀ seg ∈ ip.2, seg.hints.z = none) (c : Call K) (hc : c ∈ cs) (z : K)
    (hz : cutZ c = some z) : z = d := by
  induction h with
  | nil => simp at hc
  | skip ip l cs _ _ ih => exact ih (fun x hx => hl x (by simp [hx])) hc
  | cut ip l c0 cs _ hp _ ih =>
    rw [List.mem_append] at hc
    rcases hc with hc | hc
    · obtain ⟨first, rest, g, a, sc, hpe, hcs, hsc⟩ := hp
      have hnone : ∀ seg ∈ ip.2, seg.hints.z = none := hl ip (by simp)
      have hf : first.hints.z = none := hnone first (by rw [hpe]; simp)
      rw [hcs] at hc
      simp only [List.mem_cons] at hc
      rcases hc with rfl | rfl | rfl | rfl | rfl | hc
      · simp [cutZ] at hz
      · simp [cutZ] at hz
      · simp [cutZ] at hz
      · simp [cutZ, hf] at hz; exact hz.symm
      · simp [cutZ] at hz
      · rcases segCalls_cutZ hsc c hc z hz with h | ⟨sg, hm, hh⟩
        · exact h
        · rw [hnone sg hm] at hh; simp at hh
    · exact ih (fun x hx => hl x (by simp [hx])) hc

theorem loopCalls_cutZ {e : Env K} {o : Opts K} {paths : List (Path K)} {n : Nat} {ds : List K} {cs : List (Call K)}
    (h : LoopCalls e o paths n ds cs) (hl : ∀ p ∈ paths, ∀ seg ∈ p, seg.hints.z = none) (c : Call K) (hc : c ∈ cs)
    (z : K) (hz : cutZ c = some z) : z ∈ ds := by
  induction h with
  | nil => simp at hc
  | cons n d ds c0 cs hp _ ih =>
    rw [List.mem_append] at hc
    rcases hc with hc | hc
    · rw [passCalls_cutZ hp (fun ip hip => hl _ (enumFrom_mem _ _ _ hip)) c hc z hz]; simp
    · exact List.mem_cons_of_mem _ (ih hc)

/-- **C23**: no pass is made below `z_depth`, whatever the settings and however the run ends. -/
theorem C23_no_pass_below (e : Env K) (o : Opts K) (l : List (Path K)) (s s' : Cam K) (ds : List K)
    (h : Generate e o l s ds s') : ∀ d ∈ ds, o.zDepth ≤ d := generate_depth e o l s s' ds h

/-- **C23** at the level of the generator calls: in a completed run over lines and arcs without Z hints, every plunge and
every feed is commanded at a depth that is not below `z_depth`. -/
theorem C23_no_feed_below (e : Env K) (o : Opts K) (l : List (Path K)) (s s' : Cam K) (ds : List K) (paths : List (Path K))
    (h : Generate e o l s ds s') (herr : s'.err = none) (hprep : prepare e o s.gen.cfg.tol l = .ok paths)
    (hp : ∀ p ∈ paths, SimplePath p) (hz : ∀ p ∈ paths, ∀ seg ∈ p, seg.hints.z = none) :
    ∃ cs, s'.trace = s.trace ++ cs ∧ s'.gen = s.gen.run cs ∧ ∀ c ∈ cs, ∀ z, cutZ c = some z → o.zDepth ≤ z := by
  obtain ⟨paths', hpr, hrest⟩ := generate_spec h herr
  rw [hprep, Except.ok.injEq] at hpr
  subst hpr
  obtain ⟨cs, hlc, hext, -⟩ := hrest hp
  refine ⟨_, hext.1, hext.2, ?_⟩
  intro c hc z hcz
  simp only [List.mem_append] at hc
  rcases hc with (hc | hc) | hc
  · simp only [startCalls, List.mem_cons, List.not_mem_nil, or_false] at hc
    rcases hc with rfl | rfl | rfl <;> simp [cutZ] at hcz
  · exact generate_depth e o l s s' ds h z (loopCalls_cutZ hlc hz c hc z hcz)
  · unfold finishCalls at hc
    split at hc <;> simp only [List.mem_append, List.mem_cons, List.not_mem_nil, or_false, List.nil_append,
      List.cons_append] at hc
    · rcases hc with rfl | rfl | rfl <;> simp [cutZ] at hcz
    · rcases hc with rfl | rfl <;> simp [cutZ] at hcz

/-- **C25**: with negative `z_depth` and a negative `z_step` not close to zero, the first pass is at most `|z_step|` deep,
consecutive passes get strictly deeper and differ by at most `|z_step|`. -/
theorem C25_step_bound (e : Env K) (o : Opts K) (l : List (Path K)) (s s' : Cam K) (ds : List K)
    (h : Generate e o l s ds s') (_hzd : o.zDepth < 0) (hzs : o.zStep < 0) (hnz : ¬ |o.zStep| < e.eps) :
    (∀ d, ds.head? = some d → d < 0 ∧ -d ≤ |o.zStep|) ∧
    ∀ i (hi : i + 1 < ds.length), ds[i + 1] < ds[i] ∧ ds[i] - ds[i + 1] ≤ |o.zStep| := by
  have hstep : effStep e o = o.zStep := by
    unfold effStep isZero
    py
    rw [if_neg]
    rw [abs_of_neg hzs] at hnz
    rintro ⟨h1, -⟩
    exact hnz (by linarith)
  by_cases hne : ds = []
  · subst hne; simp
  obtain ⟨paths, s1, hl, -⟩ := generate_loop h hne
  have hneg : effStep e o < 0 := by rw [hstep]; exact hzs
  have hd := depthLoop_depths hneg hl
  rw [hstep] at hd
  constructor
  · intro d hdh
    have hpos : 0 < ds.length := List.length_pos_iff.2 hne
    have h0 := (hd 0 hpos).1
    have : ds[0] = d := by
      rw [List.head?_eq_getElem?, List.getElem?_eq_getElem hpos, Option.some.injEq] at hdh
      exact hdh
    rw [this] at h0
    simp only [Nat.cast_zero, zero_mul, add_zero] at h0
    rw [h0, abs_of_neg hzs]
    unfold firstDepth
    py
    split
    · rename_i hc
      rcases hc with hc | hc
      · exact absurd hc (not_lt.2 _hzd.le)
      · exact ⟨_hzd, by linarith⟩
    · exact ⟨hzs, le_refl _⟩
  · intro i hi
    have h1 := (hd i (by omega)).1
    have h2 := (hd (i + 1) hi).1
    rw [h1, h2, abs_of_neg hzs]
    push_cast
    constructor <;> linarith

/-- **C24**, the part that holds: a completed run with a negative effective step whose last depth is reachable in whole
steps (`z_depth` is a whole multiple of the step, or the step overshoots it, or `z_depth` is above the surface) makes its
last pass at exactly `z_depth`.  Missing: depths that are not a multiple of the step (`C24_refuted_remainder`). -/
theorem C24_last_pass_partial (e : Env K) (o : Opts K) (l : List (Path K)) (s s' : Cam K) (ds : List K)
    (h : Generate e o l s ds s') (herr : s'.err = none) (hs : stepInForce e.eps o.zDepth o.zStep < 0)
    (hm : 0 < o.zDepth ∨ stepInForce e.eps o.zDepth o.zStep < o.zDepth ∨ ∃ n : Nat, 1 ≤ n ∧ o.zDepth = n * stepInForce e.eps o.zDepth o.zStep) :
    ds.getLast? = some o.zDepth := by
  rw [← effStep_eq] at hs hm
  cases h with
  | fails er h => exact absurd herr (raise_err _ _)
  | noStart paths h h' => rw [herr] at h'; simp at h'
  | runs paths ds s1 h hst hloop =>
    have herr1 := finish_err herr
    have hcount := depthLoop_count hs hloop herr1
    have hd := depthLoop_depths hs hloop
    -- the first depth is `zDepth - k * step` for a natural number `k`
    have hk : ∃ k : Nat, firstDepth o (effStep e o) + k * effStep e o = o.zDepth := by
      unfold firstDepth
      py
      by_cases hc : 0 < o.zDepth ∨ effStep e o < o.zDepth
      · exact ⟨0, by rw [if_pos hc]; simp⟩
      · rw [if_neg hc]
        push Not at hc
        rcases hm with hm | hm | ⟨n, hn, hm⟩
        · exact absurd hm (not_lt.2 hc.1)
        · exact absurd hm (not_lt.2 hc.2)
        · refine ⟨n - 1, ?_⟩
          rw [hm]
          have : ((n - 1 : Nat) : K) = n - 1 := by push_cast [Nat.cast_sub hn]; ring
          rw [this]; ring
    obtain ⟨k, hk⟩ := hk
    have hlen : k < ds.length := by
      by_contra hc
      push Not at hc
      have : (ds.length : K) ≤ k := by exact_mod_cast hc
      nlinarith
    have hlen' : ds.length ≤ k + 1 := by
      by_contra hc
      push Not at hc
      have h2 := hd (k + 1) hc
      rw [h2.1] at h2
      have := h2.2
      push_cast at this
      linarith
    have hl : ds.length = k + 1 := by omega
    rw [List.getLast?_eq_getElem?, hl, Nat.add_sub_cancel, List.getElem?_eq_getElem hlen, (hd k hlen).1, hk]

/-- **C24** is refuted: whenever `z_depth` is not a whole multiple of the step (and the step does not overshoot it), no
pass at all is made at `z_depth`. -/
theorem C24_refuted_remainder (e : Env K) (o : Opts K) (l : List (Path K)) (s s' : Cam K) (ds : List K)
    (h : Generate e o l s ds s') (hs : stepInForce e.eps o.zDepth o.zStep < 0) (h1 : o.zDepth ≤ 0) (h2 : o.zDepth ≤ stepInForce e.eps o.zDepth o.zStep)
    (hm : ∀ n : Nat, o.zDepth ≠ n * stepInForce e.eps o.zDepth o.zStep) : o.zDepth ∉ ds := by
  rw [← effStep_eq] at hs h2 hm
  by_cases hne : ds = []
  · subst hne; simp
  obtain ⟨paths, s1, hl, -⟩ := generate_loop h hne
  intro hmem
  obtain ⟨i, hi, hie⟩ := List.getElem_of_mem hmem
  have hd := (depthLoop_depths hs hl i hi).1
  rw [hie] at hd
  unfold firstDepth at hd
  py at hd
  rw [if_neg (by push Not; exact ⟨h1, h2⟩)] at hd
  exact hm (i + 1) (by rw [hd]; push_cast; ring)

/-! ## C26 -/

/-- Specification: the XY destination of a motion call, `true` for rapid moves. -/
def xyMove : Call K → Option (Bool × P K)
  | .rapidMove (some x) (some y) _ _ _ => some (true, ⟨x, y⟩)
  | .feed (some x) (some y) _ _ _ _ => some (false, ⟨x, y⟩)
  | .feedArc _ x y _ _ _ _ _ _ => some (false, ⟨x, y⟩)
  | _ => none

/-- Specification: the motion that cuts a path: a rapid move to its start, then feeds through the end points of all its
segments. -/
def strokes (p : Path K) : List (Bool × P K) :=
  match p with
  | [] => []
  | first :: _ => (true, first.p1) :: p.map fun seg => (false, seg.p2)

theorem segCalls_xy {d : K} {p : Path K} {cs : List (Call K)} (h : SegCalls d p cs) :
    cs.filterMap xyMove = p.map fun seg => (false, seg.p2) := by
  induction h with
  | nil => rfl
  | cons seg rest turn a c cs hturn hcut _ ih =>
    have ht : turn.filterMap xyMove = ([] : List (Bool × P K)) := by
      rcases hturn with h0 | ⟨a1, h0⟩ <;> rw [h0] <;> rfl
    have hc : xyMove c = some (false, seg.p2) := by
      rcases hcut with h0 | ⟨arc, hsh, h0⟩
      · rw [h0]; rfl
      · rw [h0]; unfold Seg.p2; rw [hsh]; rfl
    rw [List.filterMap_append, ht, List.nil_append, List.filterMap_cons_some hc, ih, List.map_cons]

theorem pathCalls_xy {e : Env K} {i n : Nat} {d : K} {p : Path K} {cs : List (Call K)} (h : PathCalls e i n d p cs) :
    cs.filterMap xyMove = strokes p := by
  obtain ⟨first, rest, g, a, sc, hp, hcs, hsc⟩ := h
  have := segCalls_xy hsc
  rw [hcs, hp]
  simp only [List.filterMap_cons, xyMove, strokes]
  rw [this, hp]

theorem passCalls_xy {e : Env K} {o : Opts K} {n : Nat} {d : K} {l : List (Nat × Path K)} {cs : List (Call K)}
    (h : PassCalls e o n d l cs) :
    cs.filterMap xyMove = ((l.filter (Selected o)).map (·.2)).flatMap strokes := by
  induction h with
  | nil => rfl
  | skip ip l cs hs _ ih => rw [List.filter_cons_of_neg (by simp [hs])]; exact ih
  | cut ip l c cs hs hp _ ih =>
    rw [List.filter_cons_of_pos hs, List.filterMap_append, pathCalls_xy hp, ih]
    simp [List.flatMap_cons]

theorem loopCalls_xy {e : Env K} {o : Opts K} {paths : List (Path K)} {n : Nat} {ds : List K} {cs : List (Call K)}
    (h : LoopCalls e o paths n ds cs) :
    cs.filterMap xyMove = ds.flatMap fun _ => (chosen o paths).flatMap strokes := by
  induction h with
  | nil => rfl
  | cons n d ds c cs hp _ ih => rw [List.filterMap_append, passCalls_xy hp, ih, List.flatMap_cons]; rfl

/-- `enumerate(l, 1)` numbers the elements from one, in order. -/
theorem enumFrom_eq {α : Type} (n : Nat) (l : List α) : enumFrom n l = (l.zipIdx n).map fun x => (x.2, x.1) := by
  induction l generalizing n with
  | nil => rfl
  | cons a l ih => simp [enumFrom, List.zipIdx_cons, ih]

/-- **C26**: in a completed run over lines and arcs, the XY motion is, for each pass, the strokes of exactly the non-empty
paths whose (one-based) index is at least `path_count_start`, each once, in list order, followed by the optional home
move. -/
theorem C26_each_path_once (e : Env K) (o : Opts K) (l : List (Path K)) (s s' : Cam K) (ds : List K)
    (paths : List (Path K)) (h : Generate e o l s ds s') (herr : s'.err = none)
    (hprep : prepare e o s.gen.cfg.tol l = .ok paths) (hp : ∀ p ∈ paths, SimplePath p) :
    ∃ cs, s'.trace = s.trace ++ cs ∧ s'.gen = s.gen.run cs ∧
      cs.filterMap xyMove =
        (ds.flatMap fun _ =>
          (((paths.zipIdx 1).filter fun x => decide (o.pathCountStart ≤ (x.2 : Int)) && !x.1.isEmpty).map (·.1)).flatMap
            strokes)
        ++ if o.homeWhenDone then [(true, ⟨0, 0⟩)] else [] := by
  obtain ⟨paths', hpr, hrest⟩ := generate_spec h herr
  rw [hprep, Except.ok.injEq] at hpr
  subst hpr
  obtain ⟨cs, hlc, hext, -⟩ := hrest hp
  refine ⟨_, hext.1, hext.2, ?_⟩
  rw [List.filterMap_append, List.filterMap_append, loopCalls_xy hlc]
  have h1 : (startCalls e paths).filterMap xyMove = ([] : List (Bool × P K)) := rfl
  have h2 : (finishCalls o).filterMap xyMove =
      if o.homeWhenDone then [((true, ⟨0, 0⟩) : Bool × P K)] else [] := by
    unfold finishCalls
    split
    · py
      rfl
    · rfl
  rw [h1, h2, List.nil_append]
  have h3 : chosen o paths =
      ((paths.zipIdx 1).filter fun x => decide (o.pathCountStart ≤ (x.2 : Int)) && !x.1.isEmpty).map (·.1) := by
    unfold chosen
    rw [enumFrom_eq, List.filter_map, List.map_map]
    rfl
  rw [h3]

/-! ## C35 -/

/-- Specification: total length of a path. -/
def pathLength (e : Env K) (p : Path K) : K := (p.map (Seg.length e)).sum

theorem addLengths_eq (e : Env K) (a : K) (p : Path K) : addLengths e a p = a + pathLength e p := by
  unfold addLengths pathLength
  induction p generalizing a with
  | nil => simp
  | cons s p ih =>
    rw [List.foldl_cons, ih]
    py
    rw [List.map_cons, List.sum_cons]; ring

theorem foldl_addLengths_eq (e : Env K) (a : K) (l : List (Path K)) :
    l.foldl (addLengths e) a = a + (l.map (pathLength e)).sum := by
  induction l generalizing a with
  | nil => simp
  | cons p l ih => rw [List.foldl_cons, ih, addLengths_eq, List.map_cons, List.sum_cons]; ring

/-- **C35**: after a completed run `feed_distance` is its initial value plus, for each pass made, the total length of the
paths cut. -/
theorem C35_travel (e : Env K) (o : Opts K) (l : List (Path K)) (s s' : Cam K) (ds : List K)
    (paths : List (Path K)) (h : Generate e o l s ds s') (herr : s'.err = none)
    (hprep : prepare e o s.gen.cfg.tol l = .ok paths) (hp : ∀ p ∈ paths, SimplePath p) :
    s'.dist = s.dist + ds.length *
      (((paths.zipIdx 1).filter fun x => decide (o.pathCountStart ≤ (x.2 : Int)) && !x.1.isEmpty).map
        fun x => pathLength e x.1).sum := by
  obtain ⟨paths', hpr, hrest⟩ := generate_spec h herr
  rw [hprep, Except.ok.injEq] at hpr
  subst hpr
  obtain ⟨cs, -, -, hd⟩ := hrest hp
  have h3 : ((paths.zipIdx 1).filter fun x => decide (o.pathCountStart ≤ (x.2 : Int)) && !x.1.isEmpty).map
      (fun x => pathLength e x.1) = (chosen o paths).map (pathLength e) := by
    unfold chosen
    rw [enumFrom_eq, List.filter_map, List.map_map, List.map_map]
    rfl
  rw [hd, h3]
  generalize (chosen o paths) = ch
  clear hd h hrest h3
  generalize s.dist = a
  induction ds generalizing a with
  | nil => simp
  | cons d ds ih =>
    rw [List.foldl_cons, ih, foldl_addLengths_eq, List.length_cons]
    push_cast; ring

/-- **C35** for a single segment sequence: cutting the segments of a path adds exactly their lengths, even if they are cut
from any state at any depth. -/
theorem C35_segments (e : Env K) (o : Opts K) (d : K) (p : Path K) (hp : SimplePath p) (s : Cam K)
    (h : (p.foldl (Cam.genSegment e o d) s).err = none) :
    (p.foldl (Cam.genSegment e o d) s).dist = s.dist + (p.map (Seg.length e)).sum := by
  obtain ⟨-, -, -, hd⟩ := foldl_genSegment_spec e o d p hp s h
  rw [hd, addLengths_eq]; rfl

end
end Verif.Cam
