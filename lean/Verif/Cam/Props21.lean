import Verif.Cam.Props19

/-!
# C114: where the machine goes in a completed program
-/

set_option linter.unusedSectionVars false

namespace Verif.Cam
open Verif PyFloat PyTrig Geom GCode
open Verif.Svg (LenUnit Numeral)

section
variable {K : Type} [PyTrig K]

/-! ## Specification -/

/-- A stop of the tool: whether it is reached by a rapid traverse or by cutting, the point, and when cutting the height. -/
structure Stop (K : Type) where
  rapid : Bool
  p : P K
  z : Option K

/-- Specification: the stops of cutting a path at depth `d`: traverse to its start, then cut to the end of each segment in turn, at the depth of
the pass unless the segment has its own. -/
def stopsOf (d : K) (p : Path K) : List (Stop K) :=
  match p with
  | [] => []
  | first :: _ => ⟨true, first.p1, none⟩ :: p.map fun seg => ⟨false, seg.p2, some (seg.hints.z.getD d)⟩

/-- Specification: the stops of a whole program: at each depth, every path once. -/
def programStops (ds : List K) (paths : List (Path K)) : List (Stop K) := ds.flatMap fun d => paths.flatMap (stopsOf d)

/-- Specification: the program `blocks`, started in state `m`, moves in X and Y only to the given stops, in this order, each with a
single block (or none, if the tool is there already): `G00` to traverse, `G01`, `G02` or `G03` to cut.  `at'` says that the machine is at the stop. -/
inductive Tour (at' : Machine K → Stop K → Prop) : Machine K → List (Block K) → List (Stop K) → Prop
  | done (m : Machine K) (idle : List (Block K)) : (∀ b ∈ idle, ¬ movesXY b) → Tour at' m idle []
  | stop (m : Machine K) (idle move rest : List (Block K)) (t : Stop K) (ts : List (Stop K)) : (∀ b ∈ idle, ¬ movesXY b) → move.length ≤ 1 →
      (∀ b ∈ move, if t.rapid then b.cmd = "G00".toList else isFeed b.cmd = true) → at' (m.run (idle ++ move)) t →
      Tour at' (m.run (idle ++ move)) rest ts → Tour at' m (idle ++ move ++ rest) (t :: ts)

theorem Tour.mono {P Q : Machine K → Stop K → Prop} (hPQ : ∀ m t, P m t → Q m t) {m : Machine K} {bs : List (Block K)} {ts : List (Stop K)}
    (h : Tour P m bs ts) : Tour Q m bs ts := by
  induction h with
  | done m idle h => exact .done m idle h
  | stop m idle move rest t ts h1 h2 h3 h4 _ ih => exact .stop m idle move rest t ts h1 h2 h3 (hPQ _ _ h4) ih

theorem Tour.idle {P : Machine K → Stop K → Prop} {m : Machine K} {pre bs : List (Block K)} {ts : List (Stop K)} (hp : ∀ b ∈ pre, ¬ movesXY b)
    (h : Tour P (m.run pre) bs ts) : Tour P m (pre ++ bs) ts := by
  cases h with
  | done _ idle h =>
    refine .done m _ ?_
    intro b hb
    rcases List.mem_append.1 hb with hb | hb
    · exact hp b hb
    · exact h b hb
  | stop _ idle move rest t ts h1 h2 h3 h4 h5 =>
    have e : pre ++ (idle ++ move ++ rest) = (pre ++ idle) ++ move ++ rest := by simp [List.append_assoc]
    have hrun : (m.run pre).run (idle ++ move) = m.run ((pre ++ idle) ++ move) := by
      rw [← GCode.run_append, List.append_assoc]
    rw [e]
    refine .stop m (pre ++ idle) move rest t ts ?_ h2 h3 (by rw [← hrun]; exact h4) (by rw [← hrun]; exact h5)
    intro b hb
    rcases List.mem_append.1 hb with hb | hb
    · exact hp b hb
    · exact h1 b hb

/-! ## The stops of the calls -/

/-- The stop a call asks for. -/
def stopOf : Call K → Option (Stop K)
  | .rapidMove (some x) (some y) _ _ _ => some ⟨true, ⟨x, y⟩, none⟩
  | .feed (some x) (some y) z _ _ _ => some ⟨false, ⟨x, y⟩, z⟩
  | .feedArc _ x y _ _ _ z _ _ => some ⟨false, ⟨x, y⟩, z⟩
  | _ => none

/-- The call asks for a stop or does not mention X and Y. -/
def Whole (c : Call K) : Prop := stopOf c = none → c.request zero 'X' = none ∧ c.request zero 'Y' = none

theorem segCalls_stops {d : K} {p : Path K} {cs : List (Call K)} (h : SegCalls d p cs) :
    (cs.filterMap stopOf = p.map fun seg => ⟨false, seg.p2, some (seg.hints.z.getD d)⟩) ∧ ∀ c ∈ cs, Whole c := by
  induction h with
  | nil => exact ⟨rfl, by simp⟩
  | cons seg rest turn a c cs hturn hcut _ ih =>
    have ht : turn.filterMap stopOf = ([] : List (Stop K)) ∧ ∀ c ∈ turn, Whole c := by
      rcases hturn with h0 | ⟨a1, h0⟩ <;> rw [h0]
      · exact ⟨rfl, by simp⟩
      · refine ⟨rfl, ?_⟩
        intro c hc
        simp only [List.mem_singleton] at hc
        subst hc
        exact fun _ => ⟨rfl, rfl⟩
    have hc : stopOf c = some ⟨false, seg.p2, some (seg.hints.z.getD d)⟩ := by
      rcases hcut with h0 | ⟨arc, hsh, h0⟩
      · rw [h0]; rfl
      · rw [h0]; unfold Seg.p2; rw [hsh]; rfl
    constructor
    · rw [List.filterMap_append, ht.1, List.nil_append, List.filterMap_cons_some hc, ih.1, List.map_cons]
    · intro c' hc'
      rcases List.mem_append.1 hc' with hc' | hc'
      · exact ht.2 c' hc'
      · rcases List.mem_cons.1 hc' with rfl | hc'
        · exact fun h => absurd h (by rw [hc]; simp)
        · exact ih.2 c' hc'

theorem pathCalls_stops {e : Env K} {i n : Nat} {d : K} {p : Path K} {cs : List (Call K)} (h : PathCalls e i n d p cs) :
    cs.filterMap stopOf = stopsOf d p ∧ ∀ c ∈ cs, Whole c := by
  obtain ⟨first, rest, g, a, sc, hp, hcs, hsc⟩ := h
  have := segCalls_stops hsc
  constructor
  · rw [hcs, hp]
    simp only [List.filterMap_cons, stopOf, stopsOf]
    rw [this.1, hp]
  · rw [hcs]
    intro c hc
    simp only [List.mem_cons] at hc
    rcases hc with rfl | rfl | rfl | rfl | rfl | hc
    · exact fun _ => ⟨rfl, rfl⟩
    · exact fun _ => ⟨rfl, rfl⟩
    · exact fun h => by cases h
    · exact fun _ => ⟨rfl, rfl⟩
    · exact fun _ => ⟨rfl, rfl⟩
    · exact this.2 c hc

theorem passCalls_stops {e : Env K} {o : Opts K} {n : Nat} {d : K} {l : List (Nat × Path K)} {cs : List (Call K)} (h : PassCalls e o n d l cs) :
    cs.filterMap stopOf = ((l.filter (Selected o)).map (·.2)).flatMap (stopsOf d) ∧ ∀ c ∈ cs, Whole c := by
  induction h with
  | nil => exact ⟨rfl, by simp⟩
  | skip ip l cs hs _ ih => rw [List.filter_cons_of_neg (by simp [hs])]; exact ih
  | cut ip l c cs hs hp _ ih =>
    have h1 := pathCalls_stops hp
    constructor
    · rw [List.filter_cons_of_pos hs, List.filterMap_append, h1.1, ih.1]
      simp [List.flatMap_cons]
    · intro c' hc'
      rcases List.mem_append.1 hc' with hc' | hc'
      · exact h1.2 c' hc'
      · exact ih.2 c' hc'

theorem loopCalls_stops {e : Env K} {o : Opts K} {paths : List (Path K)} {n : Nat} {ds : List K} {cs : List (Call K)}
    (h : LoopCalls e o paths n ds cs) : cs.filterMap stopOf = programStops ds (chosen o paths) ∧ ∀ c ∈ cs, Whole c := by
  induction h with
  | nil => exact ⟨rfl, by simp⟩
  | cons n d ds c cs hp _ ih =>
    have h1 := passCalls_stops hp
    constructor
    · rw [List.filterMap_append, h1.1, ih.1]
      unfold programStops
      rw [List.flatMap_cons]; rfl
    · intro c' hc'
      rcases List.mem_append.1 hc' with hc' | hc'
      · exact h1.2 c' hc'
      · exact ih.2 c' hc'

/-! ## The blocks of the calls -/

/-- A command without X and Y writes no X or Y word, and at most one block. -/
theorem command_noXY (g : Gen K) (cmd : Str) (kw : Kw K) (hm : g.cfg.axisMap = fun _ => none) (hx : kw.args 'X' = none) (hy : kw.args 'Y' = none) :
    ∃ l, Adds g (g.command cmd kw) l ∧ ∀ b ∈ l, ¬ movesXY b := by
  have hw : ∀ base, ¬ movesXY (⟨cmd, g.cfg.wordsOf (g.posParams base kw)⟩ : Block K) := by
    rintro base ⟨w, hw, hn⟩
    rw [wordsOf_plain _ hm] at hw
    simp only [List.mem_filterMap, Option.map_eq_some_iff] at hw
    obtain ⟨k, -, v, hv, rfl⟩ := hw
    have hnv : ∀ k, k = 'X' ∨ k = 'Y' → g.posParams base kw k = none := by
      rintro k (rfl | rfl) <;> unfold Gen.posParams Gen.newVal
      · rw [hx]; split <;> rfl
      · rw [hy]; split <;> rfl
    have : k = 'X' ∨ k = 'Y' := by
      rcases hn with hn | hn
      · left; simpa using hn
      · right; simpa using hn
    rw [hnv k this] at hv
    cases hv
  unfold Gen.command
  split
  · exact ⟨[], adds_refl g, by simp⟩
  · rw [gcodeCore_eq]
    split
    · refine ⟨_, adds_writeLine (g.afterLoop _ _) _ _, ?_⟩
      intro b hb
      simp only [List.mem_singleton] at hb
      subst hb
      rintro ⟨w, h1, h2⟩
      exact hw _ ⟨w, h1, h2⟩
    · split
      · refine ⟨_, adds_writeLine (g.afterLoop _ _) _ _, ?_⟩
        intro b hb
        simp only [List.mem_singleton] at hb
        subst hb
        rintro ⟨w, h1, h2⟩
        simp [paramWords] at h1
      · exact ⟨[], by simp [Adds], by simp⟩

theorem command_one (g : Gen K) (cmd : Str) (kw : Kw K) : ∃ l, Adds g (g.command cmd kw) l ∧ l.length ≤ 1 ∧ ∀ b ∈ l, b.cmd = canonicalCmd cmd := by
  rcases adds_command g cmd kw with h | ⟨ws, h⟩
  · exact ⟨[], h, by simp, by simp⟩
  · exact ⟨_, h, by simp, by simp⟩

theorem dwell_noXY (ms : K) : ∀ b ∈ dwellBlocks ms, ¬ movesXY b := by
  intro b hb
  unfold dwellBlocks at hb
  split at hb
  · simp only [List.mem_singleton] at hb; subst hb
    rintro ⟨w, h1, h2⟩
    simp only [List.mem_singleton] at h1
    subst h1
    revert h2; dsimp only; decide
  · simp at hb

theorem plain_noXY (cmd : Str) : ¬ movesXY (⟨cmd, []⟩ : Block K) := by
  rintro ⟨w, h1, -⟩
  simp at h1

theorem append_noXY {a b : List (Block K)} (ha : ∀ x ∈ a, ¬ movesXY x) (hb : ∀ x ∈ b, ¬ movesXY x) : ∀ x ∈ a ++ b, ¬ movesXY x := by
  intro x hx
  rcases List.mem_append.1 hx with hx | hx
  · exact ha x hx
  · exact hb x hx

/-- The blocks of one call: those before the stop have no X or Y word, the stop itself takes at most one block. -/
theorem call_blocks (g : Gen K) (c : Call K) (hc : CamCall c) (hw : Whole c) (hm : g.cfg.axisMap = fun _ => none) (hu : g.cfg.altUp = none)
    (hd : g.cfg.altDown = none) (hok : (g.step c).2 = none) :
    (stopOf c = none → ∃ l, Adds g (g.step c).1 l ∧ ∀ b ∈ l, ¬ movesXY b) ∧
    (∀ t, stopOf c = some t → ∃ idle move, Adds g (g.step c).1 (idle ++ move) ∧ (∀ b ∈ idle, ¬ movesXY b) ∧ move.length ≤ 1 ∧
      ∀ b ∈ move, if t.rapid then b.cmd = "G00".toList else isFeed b.cmd = true) := by
  have hup : ∀ (g : Gen K) (r : Bool) (w : Option K) (com : Option Str), g.cfg.axisMap = (fun _ => none) → g.cfg.altUp = none →
      ∃ l, Adds g (g.toolUp r w com) l ∧ ∀ b ∈ l, ¬ movesXY b := by
    intro g r w com hm hu
    refine ⟨_, adds_toolUp g r w com _ (adds_toolUpMove g r com hu), ?_⟩
    intro b hb
    rcases List.mem_append.1 hb with hb | hb
    · simp only [List.mem_singleton] at hb
      subst hb
      rw [hm]
      rintro ⟨w, hw, hn⟩
      simp only [Option.getD_none, List.mem_singleton] at hw
      subst hw
      revert hn; dsimp only; decide
    · exact afterRetract_noXY _ _ b hb
  cases c <;> (try exact hc.elim) <;> dsimp only [Gen.step] at hok ⊢
  case rapidMove x y z a com =>
    unfold Gen.rapidMove
    dsimp only
    have h1 : ∃ l, Adds g (if g.rapidLifts then g.toolUp else g) l ∧ ∀ b ∈ l, ¬ movesXY b := by
      split
      · exact hup g _ _ _ hm hu
      · exact ⟨[], adds_refl _, by simp⟩
    have hcfg : (if g.rapidLifts then g.toolUp else g).cfg = g.cfg := by
      split
      · have hI : Stable g.cfg (fun _ : Gen K => True) := ⟨fun _ _ _ _ => trivial, fun _ _ _ _ _ _ => trivial, fun _ _ _ _ _ _ => trivial⟩
        exact (pres_toolUp hI g _ _ _ rfl).1
      · rfl
    obtain ⟨l1, ha, hh⟩ := h1
    generalize (if g.rapidLifts then g.toolUp else g) = g1 at ha hcfg ⊢
    constructor
    · intro hn
      obtain ⟨h1, h2⟩ := hw hn
      have h1' : x = none := h1
      have h2' : y = none := h2
      subst h1' h2'
      obtain ⟨l2, hb, hl2⟩ := command_noXY g1 "G00".toList { args := kwOf [('X', none), ('Y', none), ('Z', some (maxZ g1.cfg.zsafe z)), ('A', a)], comment := com }
        (by rw [hcfg]; exact hm) rfl rfl
      exact ⟨_, ha.trans hb, append_noXY hh hl2⟩
    · intro t ht
      obtain ⟨l2, hb, hlen, hcmd⟩ := command_one g1 "G00".toList { args := kwOf [('X', x), ('Y', y), ('Z', some (maxZ g1.cfg.zsafe z)), ('A', a)], comment := com }
      refine ⟨l1, l2, ha.trans hb, hh, hlen, ?_⟩
      have hr : t.rapid = true := by
        cases x with
        | none => cases ht
        | some x =>
          cases y with
          | none => cases ht
          | some y => cases ht; rfl
      intro b hb'
      rw [hr, hcmd b hb']
      show canonicalCmd _ = _
      decide
  case feed x y z a f com =>
    constructor
    · intro hn
      obtain ⟨h1, h2⟩ := hw hn
      have h1' : x = none := h1
      have h2' : y = none := h2
      subst h1' h2'
      unfold Gen.feed
      split
      · exact ⟨[], adds_refl g, by simp⟩
      · exact command_noXY g _ _ hm rfl rfl
    · intro t ht
      have hr : t.rapid = false := by
        cases x with
        | none => cases ht
        | some x =>
          cases y with
          | none => cases ht
          | some y => cases ht; rfl
      unfold Gen.feed
      split
      · exact ⟨[], [], adds_refl g, by simp, by simp, by simp⟩
      · rename_i f' hf
        obtain ⟨l2, hb, hlen, hcmd⟩ := command_one g "G01".toList { args := kwOf [('X', x), ('Y', y), ('Z', z), ('A', a), ('F', some f')], comment := com }
        refine ⟨[], l2, hb, by simp, hlen, ?_⟩
        intro b hb'
        rw [hr, hcmd b hb']
        show isFeed (canonicalCmd _) = true
        decide
  case feedArc cw x y i j a z f com =>
    constructor
    · intro hn; cases hn
    · intro t ht
      cases ht
      unfold Gen.feedArc at hok ⊢
      split at hok
      · dsimp only at hok ⊢
        split at hok
        · cases hok
        · rename_i h1
          rw [if_neg h1]
          obtain ⟨l2, hb, hlen, hcmd⟩ := command_one g (if cw then "G02".toList else "G03".toList)
            { args := kwOf [('X', some x), ('Y', some y), ('Z', z), ('I', some i), ('J', some j), ('A', a), ('F', some (f.getD g.cfg.xyfeed))],
              force := ['I', 'J'], comment := com }
          refine ⟨[], l2, hb, by simp, hlen, ?_⟩
          intro b hb'
          rw [hcmd b hb']
          show isFeed (canonicalCmd _) = true
          cases cw <;> decide
      · cases hok
  case toolUp r w com => exact ⟨fun _ => hup g r w com hm hu, fun t ht => by cases ht⟩
  case toolDown z f w com =>
    refine ⟨fun _ => ?_, fun t ht => by cases ht⟩
    unfold Gen.toolDown
    dsimp only
    have h1 : ∃ l, Adds g (if g.cfg.spAuto then g.spindleOn else g) l ∧ (∀ b ∈ l, ¬ movesXY b) := by
      split
      · refine ⟨_, adds_spindleOn g _ _ _ _, ?_⟩
        intro b hb
        simp only [List.mem_cons] at hb
        rcases hb with rfl | hb
        · rintro ⟨w, h1, h2⟩
          simp only [List.mem_singleton] at h1
          subst h1
          revert h2; dsimp only; decide
        · exact dwell_noXY _ b hb
      · exact ⟨[], adds_refl _, by simp⟩
    have hc1 : (if g.cfg.spAuto then g.spindleOn else g).cfg = g.cfg := by
      split
      · exact spindleOn_cfg _ _ _ _ _
      · rfl
    obtain ⟨l1, ha, hh⟩ := h1
    generalize (if g.cfg.spAuto then g.spindleOn else g) = g1 at ha hc1 ⊢
    have hmv : g1.toolDownMove z (f.getD g.cfg.zfeed) com = g1.command "G01".toList
        { args := kwOf [('Z', some z), ('F', some (f.getD g.cfg.zfeed))], comment := com } := by
      unfold Gen.toolDownMove; rw [hc1, hd]
    rw [hmv]
    obtain ⟨l2, h2, hh2⟩ := command_noXY g1 "G01".toList { args := kwOf [('Z', some z), ('F', some (f.getD g.cfg.zfeed))], comment := com }
      (by rw [hc1]; exact hm) rfl rfl
    generalize g1.command "G01".toList { args := kwOf [('Z', some z), ('F', some (f.getD g.cfg.zfeed))], comment := com } = g2 at h2 ⊢
    have h3 := adds_wait ({ g2 with isToolUp := false } : Gen K) (w.getD g.cfg.waitDown)
    exact ⟨_, (ha.trans (b := g1) (c := { g2 with isToolUp := false }) h2).trans h3, append_noXY (append_noXY hh hh2) (dwell_noXY _)⟩
  case comment cc s => exact ⟨fun _ => ⟨[], by unfold Adds; rw [(quiet_comment g cc s).blocks]; simp, by simp⟩, fun t ht => by cases ht⟩
  case header t com =>
    refine ⟨fun _ => ⟨_, (C20_header_lines g t com).trans (List.append_assoc _ _ _ |>.trans (List.append_assoc _ _ _)), ?_⟩, fun t ht => by cases ht⟩
    intro b hb
    simp only [List.mem_append, List.mem_cons, List.not_mem_nil, or_false] at hb
    rcases hb with (rfl | rfl | rfl | rfl | rfl) | hb | hb
    · exact plain_noXY _
    · exact plain_noXY _
    · exact plain_noXY _
    · exact plain_noXY _
    · exact plain_noXY _
    · unfold blendBlocks at hb
      repeat' split at hb
      all_goals simp only [List.mem_singleton, List.not_mem_nil, List.mem_cons, or_false] at hb
      all_goals subst hb
      all_goals rintro ⟨w, h1, h2⟩
      all_goals simp only [List.mem_singleton, List.not_mem_nil, List.mem_cons, or_false] at h1
      all_goals (try rcases h1 with rfl | rfl)
      all_goals (try subst h1)
      all_goals (revert h2; dsimp only; decide)
    · split at hb
      · simp only [List.mem_singleton] at hb; subst hb
        rintro ⟨w, h1, h2⟩
        simp only [List.mem_singleton] at h1
        subst h1
        revert h2; dsimp only; decide
      · simp at hb
  case footer =>
    refine ⟨fun _ => ⟨_, (C20_footer g).1.trans (List.append_assoc _ _ _), ?_⟩, fun t ht => by cases ht⟩
    intro b hb
    simp only [List.mem_append] at hb
    rcases hb with hb | hb
    · split at hb
      · simp only [List.mem_singleton] at hb; subst hb; exact plain_noXY _
      · simp at hb
    · simp only [List.mem_singleton] at hb; subst hb; exact plain_noXY _
  case addHeaderComment t => exact ⟨fun _ => ⟨[], by simp [Adds, Gen.addHeaderComment], by simp⟩, fun t ht => by cases ht⟩

/-- The machine is at the images of coordinates near those of the stop. -/
def Reaches (c : Cfg K) (m : Machine K) (t : Stop K) : Prop :=
  (∃ x, m.pos 'X' = some (specImage c 'X' x) ∧ Near c 'X' x t.p.x) ∧ (∃ y, m.pos 'Y' = some (specImage c 'Y' y) ∧ Near c 'Y' y t.p.y) ∧
  ∀ z, t.z = some z → ∃ w, m.pos 'Z' = some (specImage c 'Z' w) ∧ Near c 'Z' w z

theorem stop_request {c : Call K} {t : Stop K} (h : stopOf c = some t) (zs : K) :
    MotionOrIdle c ∧ c.request zs 'X' = some t.p.x ∧ c.request zs 'Y' = some t.p.y ∧ ∀ z, t.z = some z → c.request zs 'Z' = some z := by
  cases c <;> dsimp only [stopOf] at h <;> (try cases h)
  case rapidMove x y z a com =>
    cases x with
    | none => cases h
    | some x =>
      cases y with
      | none => cases h
      | some y => cases h; exact ⟨trivial, rfl, rfl, fun z hz => by cases hz⟩
  case feed x y z a f com =>
    cases x with
    | none => cases h
    | some x =>
      cases y with
      | none => cases h
      | some y => cases h; exact ⟨trivial, rfl, rfl, fun z hz => hz⟩
  case feedArc => exact ⟨trivial, rfl, rfl, fun z hz => hz⟩

theorem tour_run (c0 : Cfg K) (cs : List (Call K)) : ∀ (g : Gen K), (∀ c ∈ cs, CamCall c) → (∀ c ∈ cs, Whole c) → AllOk g cs → TrackInv g →
    g.cfg.wrapAngles = false → (∃ hs, g.cfg = { c0 with headerComments := hs }) →
    ∃ l, Adds g (g.run cs) l ∧ Tour (Reaches c0) g.machine l (cs.filterMap stopOf) := by
  induction cs with
  | nil => exact fun g _ _ _ _ _ _ => ⟨[], adds_refl g, .done _ _ (by simp)⟩
  | cons c cs ih =>
    intro g hcc hw hok hti hwr hcfg
    have hc := hcc c (by simp)
    have hti' : TrackInv (g.step c).1 := trackInv_step g c hti hc.trackable
    obtain ⟨hs', hcfg'⟩ := cam_run_cfg [c] (by simpa using hc) g
    have hcfg1 : (g.step c).1.cfg = { g.cfg with headerComments := hs' } := hcfg'
    obtain ⟨l2, ha2, ht2⟩ := ih (g.step c).1 (fun x hx => hcc x (by simp [hx])) (fun x hx => hw x (by simp [hx])) hok.2 hti'
      (by rw [hcfg1]; exact hwr) (by obtain ⟨hs, h⟩ := hcfg; exact ⟨hs', by rw [hcfg1, h]⟩)
    obtain ⟨hn, hs⟩ := call_blocks g c hc (hw c (by simp)) hti.map hti.altUp hti.altDown hok.1
    cases hst : stopOf c with
    | none =>
      obtain ⟨l1, ha1, hl1⟩ := hn hst
      refine ⟨l1 ++ l2, ha1.trans ha2, ?_⟩
      rw [List.filterMap_cons_none hst]
      refine Tour.idle hl1 ?_
      rw [← ha1.machine]
      exact ht2
    | some t =>
      obtain ⟨idle, move, ha1, h1, h2, h3⟩ := hs t hst
      refine ⟨idle ++ move ++ l2, ha1.trans ha2, ?_⟩
      rw [List.filterMap_cons_some hst]
      have hmach : g.machine.run (idle ++ move) = (g.step c).1.machine := ha1.machine.symm
      refine .stop _ idle move l2 t _ h1 h2 h3 ?_ (by rw [hmach]; exact ht2)
      rw [hmach]
      obtain ⟨hmi, hx, hy, hz⟩ := stop_request hst g.cfg.zsafe
      have hnear : ∀ k ∈ ['X', 'Y', 'Z', 'A'], ∀ v, c.request g.cfg.zsafe k = some v →
          ∃ x, (g.step c).1.machine.pos k = some (specImage c0 k x) ∧ Near c0 k x v := by
        intro k hk v hv
        obtain ⟨l, hl, hnl⟩ := (near_step g c hmi hwr hti.altUp hti.altDown k hk hok.1).1 v hv
        obtain ⟨hs, h⟩ := hcfg
        refine ⟨l, ?_, ?_⟩
        · rw [hti'.agree k hk, hl, ← specImage_eq _ _ hk, hcfg1, h]
          rfl
        · rw [h] at hnl
          exact hnl
      exact ⟨hnear 'X' (by simp) _ hx, hnear 'Y' (by simp) _ hy, fun z h => hnear 'Z' (by simp) z (hz z h)⟩

end

/-- Specification: the machine is within `tol` of the stop in X and Y, and when cutting also in Z; `scale` is the size of a machine unit in user units. -/
def AtStop (tol scale : ℝ) (m : Machine ℝ) (t : Stop ℝ) : Prop :=
  ∃ x y, m.pos 'X' = some x ∧ m.pos 'Y' = some y ∧ |x * scale - t.p.x| ≤ tol ∧ |y * scale - t.p.y| ≤ tol ∧
    ∀ z, t.z = some z → ∃ w, m.pos 'Z' = some w ∧ |w * scale - z| ≤ tol

theorem chosen_stops {K : Type} [PyTrig K] (o : TOpts K) (ds : List K) (paths : List (Path K)) :
    programStops ds (chosen (initCam o) paths) = programStops ds paths := by
  have key : ∀ (d : K) (n : Nat) (l : List (Path K)), 1 ≤ n →
      (((enumFrom n l).filter (Selected (initCam o))).map (·.2)).flatMap (stopsOf d) = l.flatMap (stopsOf d) := by
    intro d n l
    induction l generalizing n with
    | nil => intro _; rfl
    | cons p l ih =>
      intro hn
      rw [enumFrom, List.filter_cons]
      have hsel : Selected (initCam o) (n, p) = !p.isEmpty := by
        have h1 : (initCam o).pathCountStart = 1 := rfl
        have h2 : (1 : Int) ≤ (n : Int) := by exact_mod_cast hn
        simp [Selected, h1, h2]
      rw [hsel]
      cases p with
      | nil => simpa [stopsOf] using ih (n + 1) (by omega)
      | cons a r => simp [ih (n + 1) (by omega)]
  unfold programStops chosen
  congr 1
  funext d
  exact key d 1 paths (le_refl _)

theorem near_real {c : Cfg ℝ} {k : Char} {l v : ℝ} (hk : k ≠ 'A') (h : Near c k l v) (ht : 0 ≤ c.tol) : |l - v| ≤ c.tol := by
  rcases h with rfl | h
  · simpa using ht
  · rw [if_neg hk] at h
    simp only [real_abs, real_sub, real_lt, decide_eq_false_iff_not, not_lt] at h
    rw [abs_sub_comm]
    exact h

/-- **C114**, from the paths to the machine: in every completed program over lines and arcs the machine moves in X and Y, in this order, to the start
of each path and then along it from segment to segment, once for each pass and at its depth, traversing to the start with a rapid move and cutting from then on, and
nowhere else; every stop is within the tolerance of the options. -/
theorem C114_tour (v : Str) (doc : DocInfo ℝ) (hc : doc.conv.Positive) (hs : doc.viewScale ≠ 0) (e : Env ℝ) (o : TOpts ℝ) (ht : 0 ≤ o.tolerance)
    (l paths : List (Path ℝ)) (ds : List ℝ) (s : Cam ℝ) (h : Generated (realEnv v) doc e o l ds s) (herr : s.err = none)
    (hprep : prepare e (initCam o) o.tolerance l = .ok paths) (hp : ∀ p ∈ paths, SimplePath p) :
    ∃ u : LenUnit, (u = .inch ∨ u = .mm) ∧ gcodeUnit o.gcodeUnits doc.docUnits = .ok u.name ∧
      Tour (AtStop o.tolerance (u.size doc.conv.em doc.conv.ex * doc.viewScale)) Machine.off (blocksOf s.gen.out) (programStops ds paths) := by
  obtain ⟨u, hu, hgu, himg⟩ := generated_scale hc hs h
  refine ⟨u, hu, hgu, ?_⟩
  obtain ⟨g, hg, hgen⟩ := h
  obtain ⟨af, u', k, n, -, -, -, -, -, -, -, -, -, -, -, -, -, -, htol, -, -⟩ := initGcode_fields hg
  obtain ⟨paths', hpr, hrest⟩ := generate_spec hgen herr
  have hpp : paths' = paths := by
    rw [show (Cam.init g).gen.cfg.tol = o.tolerance from htol, hprep, Except.ok.injEq] at hpr
    exact hpr.symm
  subst hpp
  obtain ⟨cs, hlc, hext, -⟩ := hrest hp
  obtain ⟨cs', hext', hcs'⟩ := generate_calls hgen
  have hcc : cs' = startCalls e paths' ++ cs ++ finishCalls (initCam o) := by
    have h1 := hext.1
    rw [hext'.1] at h1
    exact List.append_cancel_left h1
  rw [hcc] at hcs'
  have hst := loopCalls_stops hlc
  have hwhole : ∀ c ∈ startCalls e paths' ++ cs ++ finishCalls (initCam o), Whole c := by
    intro c hc
    rcases List.mem_append.1 hc with hc | hc
    · rcases List.mem_append.1 hc with hc | hc
      · simp only [startCalls, List.mem_cons, List.not_mem_nil, or_false] at hc
        rcases hc with rfl | rfl | rfl <;> exact fun _ => ⟨rfl, rfl⟩
      · exact hst.2 c hc
    · have : finishCalls (initCam o) = [.toolUp true none none, .footer] := rfl
      rw [this] at hc
      simp only [List.mem_cons, List.not_mem_nil, or_false] at hc
      rcases hc with rfl | rfl <;> exact fun _ => ⟨rfl, rfl⟩
  have hstops : (startCalls e paths' ++ cs ++ finishCalls (initCam o)).filterMap stopOf = programStops ds paths' := by
    rw [List.filterMap_append, List.filterMap_append, hst.1, chosen_stops]
    have h1 : (startCalls e paths').filterMap stopOf = ([] : List (Stop ℝ)) := rfl
    have h2 : (finishCalls (initCam o)).filterMap stopOf = ([] : List (Stop ℝ)) := rfl
    rw [h1, h2]
    simp
  have hf := initGcode_fresh hg
  obtain ⟨bl, hadd, htour⟩ := tour_run g.cfg _ g hcs' hwhole (hext.ok herr).2 (trackInv_fresh g hf) (initGcode_wrap hg) ⟨_, rfl⟩
  have hgen' : s.gen = g.run (startCalls e paths' ++ cs ++ finishCalls (initCam o)) := hext.2
  have hb : blocksOf s.gen.out = bl := by
    rw [hgen', show blocksOf (g.run _).out = _ from hadd, hf.out]
    rfl
  have hm : g.machine = Machine.off := by
    unfold Gen.machine
    rw [hf.out]; rfl
  rw [hstops, hm] at htour
  rw [hb]
  refine htour.mono ?_
  intro m t hr
  obtain ⟨hh, hcfg⟩ := cam_run_cfg _ hcs' g
  have himg' : ∀ k ∈ ['X', 'Y', 'Z'], ∀ x, specImage g.cfg k x = x / (u.size doc.conv.em doc.conv.ex * doc.viewScale) := by
    intro k hk x
    rw [← himg k hk x, hgen', hcfg]
    rfl
  have hsc : u.size doc.conv.em doc.conv.ex * doc.viewScale ≠ 0 := mul_ne_zero (Svg.size_pos hc u).ne' hs
  have hn : ∀ k ∈ ['X', 'Y', 'Z'], ∀ x v, Near g.cfg k x v → |specImage g.cfg k x * (u.size doc.conv.em doc.conv.ex * doc.viewScale) - v| ≤ o.tolerance := by
    intro k hk x v hnr
    rw [himg' k hk, div_mul_cancel₀ _ hsc, ← htol]
    refine near_real ?_ hnr (by rw [htol]; exact ht)
    rintro rfl
    simp at hk
  obtain ⟨⟨x, hx, hxn⟩, ⟨y, hy, hyn⟩, hz⟩ := hr
  refine ⟨_, _, hx, hy, hn 'X' (by simp) _ _ hxn, hn 'Y' (by simp) _ _ hyn, ?_⟩
  intro z htz
  obtain ⟨w, hw, hwn⟩ := hz z htz
  exact ⟨_, hw, hn 'Z' (by simp) _ _ hwn⟩

end Verif.Cam
