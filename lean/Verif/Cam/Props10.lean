import Verif.Cam.Preview
import Verif.GCode.Props1
import Verif.Geom.Props5

/-!
# C98–C100: the preview
-/

set_option linter.unusedSectionVars false

namespace Verif.Cam
open Verif PyFloat PyTrig Geom GCode

variable {K : Type} [PyTrig K]

/-! ## Specification -/

/-- Specification: the calls that move the tool in the preview: rapid moves, feeds that ask for anything, and arcs. -/
def Travels : Call K → Prop
  | .rapidMove .. => True
  | .feed x y z a f _ => x.isSome ∨ y.isSome ∨ z.isSome ∨ a.isSome ∨ f.isSome
  | .feedArc .. => True
  | _ => False

/-- Specification: elements that show the path of the tool. -/
def Drawn.isPath : Drawn K → Bool
  | .mark .. => false
  | _ => true

/-- Specification: what a call shall draw when the tool is at `p` before and at `q` after it and the reported position
before is `(gx, gy)`. -/
def Shown (eps : K) (gx gy : Option K) (p q : P K) : Call K → List (Drawn K) → Prop
  | .rapidMove .., d => d = [.move p q]
  | .feed .., d => d = [.feed p q] ∧ (eps <. p.distance q) = true ∨ d = [] ∧ ((eps <. p.distance q) = false ∨ q = p)
  | .feedArc cw _ _ i j _ _ _ _, d => ∃ x y, gx = some x ∧ gy = some y ∧
      d = [.arc p q (P.distance ⟨i +. x, j +. y⟩ p) (!cw)]
  | _, d => d = [] ∧ q = p

/-! ## Proofs -/

theorem mark_path (c : PlotCfg K) (pl : Plotter K) (p : P K) (a : K) :
    (pl.mark c p a).drawn.filter Drawn.isPath = pl.drawn.filter Drawn.isPath ∧ (pl.mark c p a).cur = pl.cur := by
  refine ⟨?_, rfl⟩
  unfold Plotter.mark
  dsimp only
  rw [List.filter_append, List.filter_append]
  have h1 : ∀ (b : Prop) [Decidable b] (x : Drawn K), x.isPath = false → (if b then [] else [x]).filter Drawn.isPath = [] := by
    intro b _ x hx
    split <;> simp [hx]
  have h2 : ∀ (b : Prop) [Decidable b] (x : Drawn K), x.isPath = false → (if b then [x] else []).filter Drawn.isPath = [] := by
    intro b _ x hx
    split <;> simp [hx]
  rw [h1 _ _ rfl, h2 _ _ rfl]
  simp

theorem marks_path {c : PlotCfg K} {pl pl' : Plotter K} {len : K} {f : K → P K} {a0 a1 : Option K}
    (h : pl.marks c len f a0 a1 = .ok pl') :
    pl'.drawn.filter Drawn.isPath = pl.drawn.filter Drawn.isPath ∧ pl'.cur = pl.cur := by
  unfold Plotter.marks at h
  split at h
  · rename_i b0 b1
    dsimp only at h
    cases hn : numMarkers c len (b1 -. b0) with
    | error e => rw [hn] at h; cases h
    | ok n =>
      rw [hn] at h
      simp only [bind, Except.bind] at h
      split at h
      · cases h
      · rename_i l _
        injection h with h
        subst h
        rename_i hms
        clear hn hms
        induction l generalizing pl with
        | nil => exact ⟨rfl, rfl⟩
        | cons u l ih =>
          rw [List.foldl_cons]
          have := ih (pl := pl.mark c (f u.1) u.2)
          exact ⟨this.1.trans (mark_path c pl _ _).1, this.2.trans (mark_path c pl _ _).2⟩
  · cases h

theorem maybeMarks_path {c : PlotCfg K} {pl pl' : Plotter K} {len : K} {f : K → P K} {a1 : Option K}
    (h : pl.maybeMarks c len f a1 = .ok pl') :
    pl'.drawn.filter Drawn.isPath = pl.drawn.filter Drawn.isPath ∧ pl'.cur = pl.cur := by
  unfold Plotter.maybeMarks at h
  split at h
  · exact marks_path h
  · injection h with h
    subst h
    exact ⟨rfl, rfl⟩

/-- What one plotter call does to the path elements and the location. -/
theorem plot_move {c : PlotCfg K} {pl pl' : Plotter K} {e : Endp K} (h : pl.plot c (.move e) = .ok pl') :
    ∃ x y, e.x = some x ∧ e.y = some y ∧ pl'.cur = ⟨x, y⟩ ∧
      pl'.drawn.filter Drawn.isPath = pl.drawn.filter Drawn.isPath ++ [.move pl.cur ⟨x, y⟩] := by
  dsimp only [Plotter.plot] at h
  unfold Plotter.plotMove at h
  cases hx : e.x with
  | none => rw [hx] at h; cases h
  | some x =>
    cases hy : e.y with
    | none => rw [hx, hy] at h; cases h
    | some y =>
      rw [hx, hy] at h
      injection h with h
      subst h
      refine ⟨x, y, rfl, rfl, rfl, ?_⟩
      unfold Plotter.moveTo
      rw [List.filter_append]; rfl

theorem plot_feed {c : PlotCfg K} {pl pl' : Plotter K} {e : Endp K} (h : pl.plot c (.feed e) = .ok pl') :
    ∃ x y, e.x = some x ∧ e.y = some y ∧ pl'.cur = ⟨x, y⟩ ∧
      pl'.drawn.filter Drawn.isPath = pl.drawn.filter Drawn.isPath ++
        (if c.eps <. pl.cur.distance ⟨x, y⟩ then [.feed pl.cur ⟨x, y⟩] else []) := by
  dsimp only [Plotter.plot] at h
  unfold Plotter.plotFeed at h
  cases hx : e.x with
  | none => rw [hx] at h; cases h
  | some x =>
    cases hy : e.y with
    | none => rw [hx, hy] at h; cases h
    | some y =>
      rw [hx, hy] at h
      dsimp only at h
      have key : ∀ pl1 : Plotter K, pl1.drawn.filter Drawn.isPath = pl.drawn.filter Drawn.isPath →
          Except.ok (ε := PyErr) (Plotter.moveTo (if c.eps <. pl.cur.distance ⟨x, y⟩ then
            { pl1 with drawn := pl1.drawn ++ [Drawn.feed pl.cur ⟨x, y⟩] } else pl1) e ⟨x, y⟩) = .ok pl' →
          pl'.cur = ⟨x, y⟩ ∧ pl'.drawn.filter Drawn.isPath = pl.drawn.filter Drawn.isPath ++
            (if c.eps <. pl.cur.distance ⟨x, y⟩ then [.feed pl.cur ⟨x, y⟩] else []) := by
        intro pl1 h1 h2
        injection h2 with h2
        subst h2
        refine ⟨rfl, ?_⟩
        unfold Plotter.moveTo
        split
        · simp only [List.filter_append, h1]; rfl
        · simp only [h1, List.append_nil]
      refine ⟨x, y, rfl, rfl, ?_⟩
      split at h
      · cases h
      · rename_i pl1 hm
        exact key pl1 (maybeMarks_path hm).1 h

theorem plot_arc {c : PlotCfg K} {pl pl' : Plotter K} {ctr : P K} {e : Endp K} {cw : Bool}
    (h : pl.plot c (.arc ctr e cw) = .ok pl') :
    ∃ x y, e.x = some x ∧ e.y = some y ∧ pl'.cur = ⟨x, y⟩ ∧
      pl'.drawn.filter Drawn.isPath = pl.drawn.filter Drawn.isPath ++ [.arc pl.cur ⟨x, y⟩ (ctr.distance pl.cur) (!cw)] := by
  dsimp only [Plotter.plot] at h
  unfold Plotter.plotArc at h
  cases hx : e.x with
  | none => rw [hx] at h; cases h
  | some x =>
    cases hy : e.y with
    | none => rw [hx, hy] at h; cases h
    | some y =>
      rw [hx, hy] at h
      dsimp only at h
      have key : ∀ pl1 : Plotter K, pl1.drawn.filter Drawn.isPath = pl.drawn.filter Drawn.isPath →
          Except.ok (ε := PyErr) (Plotter.moveTo
            { pl1 with drawn := pl1.drawn ++ [Drawn.arc pl.cur ⟨x, y⟩ (ctr.distance pl.cur) (!cw)] } e ⟨x, y⟩) = .ok pl' →
          pl'.cur = ⟨x, y⟩ ∧ pl'.drawn.filter Drawn.isPath = pl.drawn.filter Drawn.isPath ++
            [.arc pl.cur ⟨x, y⟩ (ctr.distance pl.cur) (!cw)] := by
        intro pl1 h1 h2
        injection h2 with h2
        subst h2
        refine ⟨rfl, ?_⟩
        unfold Plotter.moveTo
        simp only [List.filter_append, h1]; rfl
      refine ⟨x, y, rfl, rfl, ?_⟩
      split at h
      · cases h
      · rename_i pl1 hm
        exact key pl1 (maybeMarks_path hm).1 h

/-- What a whole call does: the new location comes from the request, or else from the reported position. -/
theorem step_plot {c : PlotCfg K} {s s' : Session K} {call : Call K} (hm : MotionOrIdle call)
    (h : s.step c call = .ok s') :
    s.gen.step call = (s'.gen, none) ∧
    (∃ d, s'.pl.drawn.filter Drawn.isPath = s.pl.drawn.filter Drawn.isPath ++ d ∧
      Shown c.eps (s.gen.last 'X') (s.gen.last 'Y') s.pl.cur s'.pl.cur call d) ∧
    (¬ Travels call → s'.pl.cur = s.pl.cur) ∧
    (Travels call → (call.request s.gen.cfg.zsafe 'X').or (s'.gen.last 'X') = some s'.pl.cur.x ∧
      (call.request s.gen.cfg.zsafe 'Y').or (s'.gen.last 'Y') = some s'.pl.cur.y) := by
  unfold Session.step at h
  rcases hg : s.gen.step call with ⟨g', _ | e⟩
  swap
  · rw [hg] at h; cases h
  rw [hg] at h
  dsimp only at h
  cases hp : (plots s.gen g' call).foldlM (Plotter.plot c) s.pl with
  | error e => rw [hp] at h; cases h
  | ok pl =>
    rw [hp] at h
    injection h with h
    subst h
    refine ⟨rfl, ?_⟩
    dsimp only
    cases call <;> dsimp only [MotionOrIdle] at hm
    case rapidMove x y z a com =>
      have hp' : Plotter.plot c s.pl (.move (endp g' x y (some (maxZ s.gen.cfg.zsafe z)) a)) = .ok pl := by
        dsimp only [plots] at hp
        split at hp
        · simp only [List.cons_append, List.nil_append, List.foldlM_cons, List.foldlM_nil, Plotter.plot, bind, Except.bind] at hp
          show s.pl.plotMove _ = _
          cases hpm : s.pl.plotMove (endp g' x y (some (maxZ s.gen.cfg.zsafe z)) a) with
          | error er => rw [hpm] at hp; cases hp
          | ok v => rw [hpm] at hp; exact hp
        · simpa [List.foldlM_cons] using hp
      obtain ⟨px, py, hx, hy, hc, hd⟩ := plot_move hp'
      refine ⟨⟨_, hd, ?_⟩, fun h => absurd trivial h, fun _ => ⟨?_, ?_⟩⟩
      · show _ = [Drawn.move _ _]; rw [hc]
      · rw [hc]; exact hx
      · rw [hc]; exact hy
    case feed x y z a f com =>
      have ht : Travels (.feed x y z a f com) ↔ (s.gen.cfg.pickFeed x y z a f).isSome := by
        unfold Travels Cfg.pickFeed
        cases f <;> cases x <;> cases y <;> cases z <;> cases a <;> simp
      dsimp only [plots] at hp
      split at hp
      · rename_i hs
        have hp' : Plotter.plot c s.pl (.feed (endp g' x y z a)) = .ok pl := by simpa [List.foldlM_cons] using hp
        obtain ⟨px, py, hx, hy, hc, hd⟩ := plot_feed hp'
        refine ⟨⟨_, hd, ?_⟩, fun h => absurd (ht.2 hs) h, fun _ => ⟨?_, ?_⟩⟩
        · rw [hc]
          show (_ = [Drawn.feed _ _] ∧ _) ∨ _
          split
          · rename_i h; exact .inl ⟨rfl, h⟩
          · rename_i h; exact .inr ⟨rfl, .inl (by simpa using h)⟩
        · rw [hc]; exact hx
        · rw [hc]; exact hy
      · rename_i hs
        injection hp with hp
        subst hp
        exact ⟨⟨[], by simp, .inr ⟨rfl, .inr rfl⟩⟩, fun _ => rfl, fun h => absurd (ht.1 h) hs⟩
    case feedArc cw x y i j a z f com =>
      dsimp only [plots] at hp
      cases hlx : s.gen.last 'X' with
      | none =>
        exfalso
        dsimp only [Gen.step] at hg
        unfold Gen.feedArc at hg
        rw [hlx] at hg
        cases hg
      | some gx =>
        cases hly : s.gen.last 'Y' with
        | none =>
          exfalso
          dsimp only [Gen.step] at hg
          unfold Gen.feedArc at hg
          rw [hlx, hly] at hg
          cases hg
        | some gy =>
          rw [hlx, hly] at hp
          have hp' : Plotter.plot c s.pl (.arc ⟨i +. gx, j +. gy⟩ (endp g' (some x) (some y) z a) cw) = .ok pl := by
            simpa [List.foldlM_cons] using hp
          obtain ⟨px, py, hx, hy, hc, hd⟩ := plot_arc hp'
          refine ⟨⟨_, hd, gx, gy, rfl, rfl, by rw [hc]⟩, fun h => absurd trivial h, fun _ => ⟨?_, ?_⟩⟩
          · rw [hc]; exact hx
          · rw [hc]; exact hy
    case toolDown z f w com =>
      have hp' : Plotter.plot c s.pl .toolDown = .ok pl := by simpa [plots, List.foldlM_cons] using hp
      injection hp' with hp'
      subst hp'
      exact ⟨⟨[], by simp, rfl, rfl⟩, fun _ => rfl, fun h => h.elim⟩
    all_goals
      first
      | (injection hp with hp
         subst hp
         exact ⟨⟨[], by simp, rfl, rfl⟩, fun _ => rfl, fun h => h.elim⟩)
      | (have hp' : Plotter.plot c s.pl .toolUp = .ok pl := by simpa [plots, List.foldlM_cons] using hp
         injection hp' with hp'
         subst hp'
         exact ⟨⟨[], by simp, rfl, rfl⟩, fun _ => rfl, fun h => h.elim⟩)

/-- **C98** (drawing), the part that holds: every call that does not raise adds to the preview exactly the line or arc of
that call, from the location shown before to the new one: a rapid move a move line, a feed a feed line (unless it is not
longer than the resolution), an arc an arc in the same direction whose radius is the distance from the commanded centre.
Missing: what the arc looks like (C99), and calls of `gcode_command` itself, which the preview does not see. -/
theorem C98_draws_partial (c : PlotCfg K) (s s' : Session K) (call : Call K) (hm : MotionOrIdle call)
    (h : s.step c call = .ok s') :
    ∃ d, s'.pl.drawn.filter Drawn.isPath = s.pl.drawn.filter Drawn.isPath ++ d ∧
      Shown c.eps (s.gen.last 'X') (s.gen.last 'Y') s.pl.cur s'.pl.cur call d := (step_plot hm h).2.1

theorem run_follow {c : PlotCfg K} (cfg : Cfg K) (hw : cfg.wrapAngles = false) (hau : cfg.altUp = none)
    (had : cfg.altDown = none) (calls : List (Call K)) (s s' : Session K) (hcfg : s.gen.cfg = cfg)
    (hm : ∀ call ∈ calls, MotionOrIdle call) (h : s.run c calls = .ok s')
    (h0 : (∃ call ∈ calls, Travels call) ∨ ((∃ l, s.gen.last 'X' = some l ∧ Near cfg 'X' l s.pl.cur.x) ∧
      ∃ l, s.gen.last 'Y' = some l ∧ Near cfg 'Y' l s.pl.cur.y)) :
    (∃ l, s'.gen.last 'X' = some l ∧ Near cfg 'X' l s'.pl.cur.x) ∧
      ∃ l, s'.gen.last 'Y' = some l ∧ Near cfg 'Y' l s'.pl.cur.y := by
  induction calls generalizing s with
  | nil =>
    injection h with h
    subst h
    exact h0.resolve_left (by simp)
  | cons call calls ih =>
    cases hs : s.step c call with
    | error e => rw [Session.run, hs] at h; cases h
    | ok s1 =>
      rw [Session.run, hs] at h
      have hmc := hm call (by simp)
      obtain ⟨hg, -, hidle, htrav⟩ := step_plot hmc hs
      have hcfg1 : s1.gen.cfg = cfg := by
        rw [← hcfg, ← step_cfg s.gen call (by cases call <;> first | rfl | exact hmc.elim), hg]
      refine ih s1 hcfg1 (fun c' h' => hm c' (by simp [h'])) h ?_
      have near : ∀ (k : Char) (v : K), k ∈ ['X', 'Y'] → (call.request s.gen.cfg.zsafe k).or (s1.gen.last k) = some v →
          ∃ l, s1.gen.last k = some l ∧ Near cfg k l v := by
        intro k v hk hv
        have hk' : k ∈ trackedAxes := by
          simp only [List.mem_cons, List.not_mem_nil, or_false] at hk
          rcases hk with rfl | rfl <;> decide
        have hn := near_step s.gen call hmc (by rw [hcfg]; exact hw) (by rw [hcfg]; exact hau) (by rw [hcfg]; exact had) k hk'
          (by rw [hg])
        rw [hg] at hn
        cases hr : call.request s.gen.cfg.zsafe k with
        | some w =>
          rw [hr] at hv
          obtain rfl : w = v := by simpa using hv
          rw [← hcfg]
          exact hn.1 _ hr
        | none =>
          rw [hr] at hv
          exact ⟨v, by simpa using hv, .inl rfl⟩
      by_cases ht : Travels call
      · exact .inr ⟨near 'X' _ (by simp) (htrav ht).1, near 'Y' _ (by simp) (htrav ht).2⟩
      · rcases h0 with ⟨t, ht1, ht2⟩ | h0
        · rcases List.mem_cons.1 ht1 with rfl | ht1
          · exact absurd ht2 ht
          · exact .inl ⟨t, ht1, ht2⟩
        · right
          rw [hidle ht]
          have keep : ∀ k, k ∈ ['X', 'Y'] → s1.gen.last k = s.gen.last k := by
            intro k hk
            have hk2 : k = 'X' ∨ k = 'Y' := by simpa using hk
            have hk' : k ∈ trackedAxes := by rcases hk2 with rfl | rfl <;> decide
            have hn := near_step s.gen call hmc (by rw [hcfg]; exact hw) (by rw [hcfg]; exact hau) (by rw [hcfg]; exact had) k hk'
              (by rw [hg])
            rw [hg] at hn
            refine hn.2 ?_
            cases call <;> first | exact absurd trivial ht | exact hmc.elim | skip
            case feed x y z a f com =>
              have : ¬ (x.isSome ∨ y.isSome ∨ z.isSome ∨ a.isSome ∨ f.isSome) := ht
              push Not at this
              rcases hk2 with rfl | rfl <;> simp [Call.request] <;> simp_all
            all_goals rcases hk2 with rfl | rfl <;> rfl
          rw [keep 'X' (by simp), keep 'Y' (by simp)]
          exact h0

/-- **C98** (location), the part that holds: after every history of calls none of which raises and one of which moves the
tool, the location at which the preview continues to draw is, in X and in Y, the reported position of the tool, or not
farther from it than the comparison tolerance. -/
theorem C98_follows_tool_partial (c : PlotCfg K) (g0 : Gen K) (h0 : Fresh g0) (hw : g0.cfg.wrapAngles = false)
    (calls : List (Call K)) (hm : ∀ call ∈ calls, MotionOrIdle call) (ht : ∃ call ∈ calls, Travels call) (s : Session K)
    (h : Session.run c ⟨g0, Plotter.start⟩ calls = .ok s) :
    ∃ x y, s.gen.position ['X'] = .ok (some x) ∧ s.gen.position ['Y'] = .ok (some y) ∧
      (x = s.pl.cur.x ∨ (g0.cfg.tol <. abs (s.pl.cur.x -. x)) = false) ∧
      (y = s.pl.cur.y ∨ (g0.cfg.tol <. abs (s.pl.cur.y -. y)) = false) := by
  obtain ⟨⟨x, hx, nx⟩, ⟨y, hy, ny⟩⟩ := run_follow g0.cfg hw h0.altUp h0.altDown calls _ s rfl hm h (.inl ht)
  refine ⟨x, y, position_X hx, ?_, ?_, ?_⟩
  · simp [Gen.position, show upperS ['Y'] = ['Y'] by decide, show 'Y' ∈ orderedParams by decide, hy]
  · simpa [Near] using nx
  · simpa [Near] using ny

/-- A plotter without tool marks, for examples. -/
def demoPlot : PlotCfg ℚ := ⟨1/100000, 1/1000000, false, 1, 1, 0, 1, 10⟩

/-- Non-vacuity: the history of the examples of C01 is drawn: a move, a feed, a clockwise arc (half a turn), a move home. -/
example : ((Session.run demoPlot ⟨demo, Plotter.start⟩ demoCalls).toOption.map fun s => s.pl.drawn) =
      some [.move ⟨0, 0⟩ ⟨1, 2⟩, .feed ⟨1, 2⟩ ⟨3, 2⟩, .arc ⟨3, 2⟩ ⟨5, 2⟩ 1 false, .move ⟨5, 2⟩ ⟨0, 0⟩] ∧
    (∀ c ∈ demoCalls, MotionOrIdle c) ∧ ∃ c ∈ demoCalls, Travels c := by
  refine ⟨by decide +kernel, ?_, _, List.mem_cons_self .., trivial⟩
  intro c hc
  simp only [demoCalls, List.mem_cons, List.not_mem_nil, or_false] at hc
  rcases hc with rfl | rfl | rfl | rfl | rfl | rfl <;> trivial

/-- The part of **C98** that fails: a move that does not name X while X is unknown (or Y while Y is unknown) raises
`TypeError` in the plotter, although the generator accepts and writes it. -/
theorem C98_refuted_unknown (c : PlotCfg K) (s : Session K) (x y z a : Option K) (com : Option Str)
    (hok : (s.gen.step (.rapidMove x y z a com)).2 = none)
    (h : (x = none ∧ (s.gen.step (.rapidMove x y z a com)).1.last 'X' = none) ∨
      (y = none ∧ (s.gen.step (.rapidMove x y z a com)).1.last 'Y' = none)) :
    s.step c (.rapidMove x y z a com) = .error .typeError := by
  unfold Session.step
  rcases hg : s.gen.step (.rapidMove x y z a com) with ⟨g', e⟩
  rw [hg] at hok h
  dsimp only at hok h
  subst hok
  dsimp only
  have hm : ∀ pl : Plotter K, Plotter.plotMove pl (endp g' x y (some (maxZ s.gen.cfg.zsafe z)) a) = .error .typeError := by
    intro pl
    unfold Plotter.plotMove endp
    rcases h with ⟨rfl, h⟩ | ⟨rfl, h⟩
    · rw [h]; rfl
    · rw [h]; cases (x.or (g'.last 'X')) <;> rfl
  dsimp only [plots]
  split <;>
    simp only [List.cons_append, List.nil_append, List.foldlM_cons, List.foldlM_nil, Plotter.plot, bind, Except.bind, hm]

/-- The hypotheses of `C98_refuted_unknown` are met by the first `rapid_move(z=5)` of a program, which is written. -/
theorem C98_refuted_first_move : Session.step demoPlot ⟨demo, Plotter.start⟩ (.rapidMove none none (some 5) none none) = .error .typeError ∧
    (demo.step (.rapidMove none none (some 5) none none)).2 = none ∧
    (demo.step (.rapidMove none none (some 5) none none)).1.machine.pos 'Z' = some 5 := by
  refine ⟨C98_refuted_unknown _ _ _ _ _ _ _ ?_ (.inl ⟨rfl, ?_⟩), ?_, ?_⟩ <;> decide +kernel

end Verif.Cam
