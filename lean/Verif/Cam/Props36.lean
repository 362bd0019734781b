import Verif.Cam.Props21
import Verif.Cam.Props7
import Verif.Cam.Props20

/-!
# C188: lines are cut straight and arcs along their circle
-/

set_option linter.unusedSectionVars false

namespace Verif.Cam
open Verif PyFloat PyTrig Geom GCode
open Verif.Svg (LenUnit Numeral)

section
variable {K : Type} [PyTrig K]

/-! ## Specification -/

/-- Specification: one leg of the journey of the tool: traverse to a point, or cut a segment at a height. -/
inductive Leg (K : Type) where
  | traverse (p : P K)
  | cut (seg : Seg K) (z : K)

/-- Where a leg ends. -/
def Leg.stop : Leg K → Stop K
  | .traverse p => ⟨true, p, none⟩
  | .cut seg z => ⟨false, seg.p2, some z⟩

/-- Specification: the legs of cutting a path at depth `d`: traverse to its start, then cut each segment in turn, at the depth of the pass unless the
segment has its own. -/
def legsOf (d : K) (p : Path K) : List (Leg K) :=
  match p with
  | [] => []
  | first :: _ => .traverse first.p1 :: p.map fun seg => .cut seg (seg.hints.z.getD d)

/-- Specification: the legs of a whole program: at each depth, every path once. -/
def programLegs (ds : List K) (paths : List (Path K)) : List (Leg K) := ds.flatMap fun d => paths.flatMap (legsOf d)

/-- Specification: the blocks do not move the machine in X or Y. -/
def StillXY (m : Machine K) (idle : List (Block K)) : Prop :=
  (∀ b ∈ idle, ¬ movesXY b) ∧ (m.run idle).pos 'X' = m.pos 'X' ∧ (m.run idle).pos 'Y' = m.pos 'Y'

/-- Specification: the program `blocks`, started in state `m`, makes the given legs in this order, each with a single block (or none), and does not move in X
or Y otherwise.  `ok m leg move m'` says how the leg is made: from `m`, with the blocks `move`, to `m'`. -/
inductive Journey (ok : Machine K → Leg K → List (Block K) → Machine K → Prop) : Machine K → List (Block K) → List (Leg K) → Prop
  | done (m : Machine K) (idle : List (Block K)) : StillXY m idle → Journey ok m idle []
  | leg (m : Machine K) (idle move rest : List (Block K)) (t : Leg K) (ts : List (Leg K)) : StillXY m idle → move.length ≤ 1 →
      ok (m.run idle) t move (m.run (idle ++ move)) → Journey ok (m.run (idle ++ move)) rest ts → Journey ok m (idle ++ move ++ rest) (t :: ts)

theorem Journey.mono {P Q : Machine K → Leg K → List (Block K) → Machine K → Prop} (hPQ : ∀ m t l m', P m t l m' → Q m t l m') {m : Machine K}
    {bs : List (Block K)} {ts : List (Leg K)} (h : Journey P m bs ts) : Journey Q m bs ts := by
  induction h with
  | done m idle h => exact .done m idle h
  | leg m idle move rest t ts h1 h2 h3 _ ih => exact .leg m idle move rest t ts h1 h2 (hPQ _ _ _ _ h3) ih

theorem StillXY.append {m : Machine K} {a b : List (Block K)} (h : StillXY m a) (h' : StillXY (m.run a) b) : StillXY m (a ++ b) := by
  refine ⟨append_noXY h.1 h'.1, ?_, ?_⟩ <;> rw [GCode.run_append]
  · rw [h'.2.1, h.2.1]
  · rw [h'.2.2, h.2.2]

theorem StillXY.nil (m : Machine K) : StillXY m [] := ⟨by simp, rfl, rfl⟩

theorem Journey.idle {P : Machine K → Leg K → List (Block K) → Machine K → Prop} {m : Machine K} {pre bs : List (Block K)} {ts : List (Leg K)}
    (hp : StillXY m pre) (h : Journey P (m.run pre) bs ts) : Journey P m (pre ++ bs) ts := by
  cases h with
  | done _ idle h => exact .done m _ (hp.append h)
  | leg _ idle move rest t ts h1 h2 h3 h4 =>
    have e : pre ++ (idle ++ move ++ rest) = (pre ++ idle) ++ move ++ rest := by simp [List.append_assoc]
    have hrun : (m.run pre).run (idle ++ move) = m.run ((pre ++ idle) ++ move) := by
      rw [← GCode.run_append, List.append_assoc]
    have hrun' : (m.run pre).run idle = m.run (pre ++ idle) := by rw [← GCode.run_append]
    rw [e]
    refine .leg m (pre ++ idle) move rest t ts (hp.append h1) h2 ?_ (by rw [← hrun]; exact h4)
    rw [← hrun, ← hrun']; exact h3

/-! ## The calls of the legs -/

/-- The call for a leg made in state `g`: an arc is cut round if the tracked position is on its circle, and straight otherwise. -/
def LegCall (e : Env K) (g : Gen K) : Leg K → Call K → Prop
  | .traverse p, c => ∃ a, c = .rapidMove (some p.x) (some p.y) none (some a) none
  | .cut seg z, c => ∃ ea,
      ((∀ arc, seg.shape = .arc arc → ∃ x y, g.last 'X' = some x ∧ g.last 'Y' = some y ∧ floatEq e.eps (arc.center.distance ⟨x, y⟩) arc.radius = false) ∧
        c = .feed (some seg.p2.x) (some seg.p2.y) (some z) (some ea) none none) ∨
      ∃ arc x y, seg.shape = .arc arc ∧ g.last 'X' = some x ∧ g.last 'Y' = some y ∧ floatEq e.eps (arc.center.distance ⟨x, y⟩) arc.radius = true ∧
        c = .feedArc arc.isClockwise arc.p2.x arc.p2.y (arc.center.sub arc.p1).x (arc.center.sub arc.p1).y (some ea) (some z) none none

/-- The calls, made from state `g`, make the legs in order. -/
inductive Ann (e : Env K) : Gen K → List (Call K) → List (Leg K) → Prop
  | nil (g : Gen K) : Ann e g [] []
  | idle (g : Gen K) (c : Call K) (cs : List (Call K)) (ls : List (Leg K)) : stopOf c = none → Whole c → Ann e (g.step c).1 cs ls → Ann e g (c :: cs) ls
  | leg (g : Gen K) (c : Call K) (cs : List (Call K)) (l : Leg K) (ls : List (Leg K)) : LegCall e g l c → Ann e (g.step c).1 cs ls →
      Ann e g (c :: cs) (l :: ls)

theorem Ann.append {e : Env K} {g : Gen K} {a b : List (Call K)} {l l' : List (Leg K)} (h : Ann e g a l) (h' : Ann e (g.run a) b l') :
    Ann e g (a ++ b) (l ++ l') := by
  induction h with
  | nil g => exact h'
  | idle g c cs ls h1 h2 _ ih => exact .idle g c _ _ h1 h2 (ih h')
  | leg g c cs l ls h1 _ ih => exact .leg g c _ l _ h1 (ih h')

theorem Ann.one (e : Env K) (g : Gen K) {c : Call K} (h : stopOf c = none) (h' : Whole c) : Ann e g [c] [] := .idle g c [] [] h h' (.nil _)

theorem feedSeg_leg (e : Env K) (s : Cam K) (seg : Seg K) (ea d : K) (hs : seg.Simple)
    (h : (s.feedSeg e seg ea d).err = none) :
    s.err = none ∧ ∃ c, LegCall e s.gen (.cut seg d) c ∧ s.feedSeg e seg ea d = s.emit c := by
  unfold Cam.feedSeg at h ⊢
  rcases hs with ⟨l, hl⟩ | ⟨a, ha⟩
  · rw [hl] at h ⊢
    exact ⟨emit_err_none h, _, ⟨ea, Or.inl ⟨fun arc h => (by rw [hl] at h; cases h), rfl⟩⟩, rfl⟩
  · rw [ha] at h ⊢
    dsimp only at h ⊢
    split at h
    · rename_i x y hx hy
      split at h
      · rename_i h1
        rw [if_pos h1]
        exact ⟨emit_err_none h, _, ⟨ea, Or.inr ⟨a, x, y, ha, hx, hy, h1, rfl⟩⟩, rfl⟩
      · rename_i h1
        rw [if_neg h1]
        refine ⟨emit_err_none h, _, ⟨ea, Or.inl ⟨fun arc h => ?_, rfl⟩⟩, rfl⟩
        rw [ha] at h
        cases h
        exact ⟨x, y, hx, hy, by simpa using h1⟩
    · exact absurd h (raise_err _ _)

theorem genSegment_leg (e : Env K) (o : Opts K) (d : K) (s : Cam K) (seg : Seg K) (hs : seg.Simple)
    (h : (s.genSegment e o d seg).err = none) :
    ∃ cs, Extends s cs (s.genSegment e o d seg) ∧ Ann e s.gen cs [.cut seg (seg.hints.z.getD d)] := by
  unfold Cam.genSegment at h ⊢
  by_cases he : s.err.isSome
  · rw [if_pos he] at h; rw [h] at he; simp at he
  have he' : s.err = none := by simpa using he
  rw [if_neg he] at h ⊢
  dsimp only at h ⊢
  obtain ⟨cs, hext, ht, hte, -⟩ := turnTo_spec e o { s with dist := s.dist +. seg.length e } seg he'
  generalize hT : ({ s with dist := s.dist +. seg.length e } : Cam K).turnTo e o seg = T at *
  have hfe : (T.1.feedSeg e seg T.2 (seg.hints.z.getD d)).err = none := by
    split at h
    · exact h
    · rename_i h1; simpa using h1
  obtain ⟨-, c, hc, hcE⟩ := feedSeg_leg e T.1 seg T.2 _ hs hfe
  have hn : ¬ ((T.1.feedSeg e seg T.2 (seg.hints.z.getD d)).err.isSome = true) := by rw [hfe]; simp
  rw [if_neg hn]
  have hgen : T.1.gen = s.gen.run cs := hext.gen
  refine ⟨cs ++ [c], ?_, ?_⟩
  · have := Extends.trans hext (emit_ext (c := c) hte)
    rw [hcE]
    exact ⟨this.1, this.2, this.ok⟩
  · have hturn : Ann e s.gen cs [] := by
      rcases ht with ⟨h0, -⟩ | h0 <;> rw [h0]
      · exact .nil _
      · exact Ann.one e _ rfl (fun _ => ⟨rfl, rfl⟩)
    refine hturn.append (.leg _ c [] _ [] ?_ (.nil _))
    rw [← hgen]
    exact hc

theorem foldl_genSegment_legs (e : Env K) (o : Opts K) (d : K) (p : Path K) (hp : SimplePath p) (s : Cam K)
    (h : (p.foldl (Cam.genSegment e o d) s).err = none) :
    ∃ cs, Extends s cs (p.foldl (Cam.genSegment e o d) s) ∧ Ann e s.gen cs (p.map fun seg => .cut seg (seg.hints.z.getD d)) := by
  induction p generalizing s with
  | nil => exact ⟨[], Extends.refl _, .nil _⟩
  | cons seg p ih =>
    have h' : (p.foldl (Cam.genSegment e o d) (s.genSegment e o d seg)).err = none := h
    obtain ⟨cs1, hext, ha⟩ := genSegment_leg e o d s seg (hp seg (by simp)) (foldl_genSegment_err h')
    obtain ⟨cs2, hext2, ha2⟩ := ih (fun x hx => hp x (by simp [hx])) _ h'
    refine ⟨cs1 ++ cs2, hext.trans hext2, ?_⟩
    rw [hext.gen] at ha2
    exact ha.append ha2

theorem ann_prefix (e : Env K) (g : Gen K) (t : Str) (p : P K) (a z : K) :
    Ann e g ([.comment .none true] ++ [.comment (.one t) true] ++ [.rapidMove (some p.x) (some p.y) none (some a) none] ++ [.toolDown z none none none] ++
      [.comment (.one "Start tool path".toList) true]) [.traverse p] :=
  .idle _ _ _ _ rfl (fun _ => ⟨rfl, rfl⟩) (.idle _ _ _ _ rfl (fun _ => ⟨rfl, rfl⟩) (.leg _ _ _ _ _ ⟨_, rfl⟩
    (.idle _ _ _ _ rfl (fun _ => ⟨rfl, rfl⟩) (.idle _ _ _ _ rfl (fun _ => ⟨rfl, rfl⟩) (.nil _)))))

theorem genPath_legs (e : Env K) (o : Opts K) (d : K) (n : Nat) (s : Cam K) (ip : Nat × Path K) (hp : SimplePath ip.2)
    (hsel : Selected o ip = true) (h : (s.genPath e o d n ip).err = none) :
    ∃ cs, Extends s cs (s.genPath e o d n ip) ∧ Ann e s.gen cs (legsOf d ip.2) := by
  obtain ⟨i, p⟩ := ip
  cases p with
  | nil => simp [Selected] at hsel
  | cons first rest =>
    have hi : o.pathCountStart ≤ (i : Int) := by simpa [Selected] using hsel
    unfold Cam.genPath at h ⊢
    simp only [if_pos hi] at h ⊢
    have h5 := foldl_genSegment_err h
    obtain ⟨cs, hext, ha⟩ := foldl_genSegment_legs e o d (first :: rest) hp _ h
    have h4 := emit_err_none h5
    have h3 := emit_err_none h4
    obtain ⟨h2, hrap, -, -⟩ := genRapid_spec h3
    have h1 := emit_err_none h2
    have h0 := emit_err_none h1
    have E := (((((emit_ext (c := .comment .none true) h0).trans (emit_ext h1)).trans hrap).trans (emit_ext h3)).trans
      (emit_ext (c := .comment (.one "Start tool path".toList) true) h4))
    refine ⟨_, E.trans hext, ?_⟩
    unfold Cam.plunge at ha
    rw [E.gen] at ha
    exact (ann_prefix e s.gen _ _ _ _).append ha

theorem genPass_legs (e : Env K) (o : Opts K) (d : K) (n : Nat) (l : List (Nat × Path K))
    (hl : ∀ ip ∈ l, SimplePath ip.2) (s : Cam K) (h : (l.foldl (Cam.genPath e o d n) s).err = none) :
    ∃ cs, Extends s cs (l.foldl (Cam.genPath e o d n) s) ∧ Ann e s.gen cs (((l.filter (Selected o)).map (·.2)).flatMap (legsOf d)) := by
  induction l generalizing s with
  | nil => exact ⟨[], Extends.refl _, .nil _⟩
  | cons ip l ih =>
    have h' : (l.foldl (Cam.genPath e o d n) (s.genPath e o d n ip)).err = none := h
    obtain ⟨cs, hext, ha⟩ := ih (fun x hx => hl x (by simp [hx])) _ h'
    have h1 := genPass_aux_err h'
    cases hsel : Selected o ip with
    | false =>
      rw [List.filter_cons_of_neg (by simp [hsel])]
      refine ⟨cs, ?_, ?_⟩
      · show Extends s cs (l.foldl (Cam.genPath e o d n) (s.genPath e o d n ip))
        have := genPath_skip e o d n s ip hsel
        rw [this] at hext ⊢; exact hext
      · rw [genPath_skip e o d n s ip hsel] at ha
        exact ha
    | true =>
      obtain ⟨c, hext1, ha1⟩ := genPath_legs e o d n s ip (hl ip (by simp)) hsel h1
      refine ⟨c ++ cs, hext1.trans hext, ?_⟩
      rw [List.filter_cons_of_pos hsel, List.map_cons, List.flatMap_cons]
      rw [hext1.gen] at ha
      exact ha1.append ha

theorem depthLoop_legs {e : Env K} {o : Opts K} {paths : List (Path K)} (hp : ∀ p ∈ paths, SimplePath p)
    {n : Nat} {d : K} {s s' : Cam K} {ds : List K} (h : DepthLoop e o paths n d s ds s') (herr : s'.err = none) :
    ∃ cs, Extends s cs s' ∧ Ann e s.gen cs (programLegs ds (chosen o paths)) := by
  induction h with
  | done n d s _ => exact ⟨[], Extends.refl _, .nil _⟩
  | raised n d s _ h => rw [herr] at h; simp at h
  | pass n d s ds s' _ hok _ ih =>
    obtain ⟨cs, hext, ha⟩ := ih herr
    obtain ⟨c, hext1, ha1⟩ := genPass_legs e o d n (enumFrom 1 paths) (fun ip hip => hp _ (enumFrom_mem _ _ _ hip)) s hok
    refine ⟨c ++ cs, hext1.trans hext, ?_⟩
    have hg : (s.genPass e o paths d n).gen = s.gen.run c := hext1.gen
    rw [hg] at ha
    exact ha1.append ha

theorem generate_legs {e : Env K} {o : Opts K} (ho : o.homeWhenDone = false) {l paths : List (Path K)} {s s' : Cam K} {ds : List K}
    (hrun : Generate e o l s ds s') (herr : s'.err = none) (hpr : prepare e o s.gen.cfg.tol l = .ok paths) (hp : ∀ p ∈ paths, SimplePath p) :
    ∃ cs, Extends s cs s' ∧ Ann e s.gen cs (programLegs ds (chosen o paths)) := by
  cases hrun with
  | fails er h => exact absurd herr (raise_err _ _)
  | noStart paths h h' => rw [herr] at h'; simp at h'
  | runs paths' ds s1 h hst hloop =>
    have hpp : paths' = paths := by rw [hpr, Except.ok.injEq] at h; exact h.symm
    subst hpp
    have h1 := finish_err herr
    obtain ⟨cs, hext, ha⟩ := depthLoop_legs hp hloop h1
    obtain ⟨-, hse, -⟩ := start_spec hst
    obtain ⟨hfe, -, -⟩ := finish_spec (o := o) h1
    refine ⟨_, (hse.trans hext).trans hfe, ?_⟩
    have hidle : ∀ (g : Gen K) (l : List (Call K)), (∀ c ∈ l, stopOf c = none ∧ Whole c) → Ann e g l [] := by
      intro g l
      induction l generalizing g with
      | nil => exact fun _ => .nil _
      | cons c l ih => exact fun h => .idle _ _ _ _ (h c (by simp)).1 (h c (by simp)).2 (ih _ fun x hx => h x (by simp [hx]))
    have hA : Ann e s.gen (startCalls e paths') [] := by
      apply hidle
      intro c hc
      simp only [startCalls, List.mem_cons, List.not_mem_nil, or_false] at hc
      rcases hc with rfl | rfl | rfl <;> exact ⟨rfl, fun _ => ⟨rfl, rfl⟩⟩
    have hC : ∀ g : Gen K, Ann e g (finishCalls o) [] := by
      intro g
      apply hidle
      intro c hc
      simp only [finishCalls, ho, Bool.false_eq_true, if_false, List.nil_append, List.mem_cons, List.not_mem_nil, or_false] at hc
      rcases hc with rfl | rfl <;> exact ⟨rfl, fun _ => ⟨rfl, rfl⟩⟩
    rw [hse.gen] at ha
    have := (hA.append ha).append (hC _)
    simpa using this

/-! ## The blocks of the legs -/

/-- The machine goes to the image of the coordinate `v`, or stays where it is, at the image of a coordinate near `v`. -/
def LandsK (c : Cfg K) (m m' : Machine K) (k : Char) (v : K) : Prop :=
  m'.pos k = some (specImage c k v) ∨ (m'.pos k = m.pos k ∧ ∃ l, m.pos k = some (specImage c k l) ∧ (c.tol <. PyFloat.abs (v -. l)) = false)

/-- How a leg is made, in terms of the configuration `c` of the generator. -/
def Made (e : Env K) (c : Cfg K) (m : Machine K) (t : Leg K) (move : List (Block K)) (m' : Machine K) : Prop :=
  (LandsK c m m' 'X' t.stop.p.x ∧ LandsK c m m' 'Y' t.stop.p.y ∧ ∀ z, t.stop.z = some z → ∃ w, m'.pos 'Z' = some (specImage c 'Z' w) ∧ Near c 'Z' w z) ∧
  match t with
  | .traverse _ => ∀ b ∈ move, b.cmd = "G00".toList
  | .cut seg _ =>
    ((∀ a, seg.shape ≠ .arc a) → ∀ b ∈ move, b.cmd = "G01".toList) ∧
    ∀ a, seg.shape = .arc a → ∃ x y, m.pos 'X' = some (specImage c 'X' x) ∧ m.pos 'Y' = some (specImage c 'Y' y) ∧
      (floatEq e.eps (a.center.distance ⟨x, y⟩) a.radius = false → ∀ b ∈ move, b.cmd = "G01".toList) ∧
      (floatEq e.eps (a.center.distance ⟨x, y⟩) a.radius = true → ∃ b, move = [b] ∧ b.cmd = (if a.isClockwise then "G02".toList else "G03".toList) ∧
        ∃ dg, (⟨['I'], .num dg (c.outVal 'I' (a.center.sub a.p1).x)⟩ : Word K) ∈ b.words ∧ (⟨['J'], .num dg (c.outVal 'J' (a.center.sub a.p1).y)⟩ : Word K) ∈ b.words)

theorem legCall_stop {e : Env K} {g : Gen K} {t : Leg K} {c : Call K} (h : LegCall e g t c) : stopOf c = some t.stop := by
  cases t with
  | traverse p => obtain ⟨a, rfl⟩ := h; rfl
  | cut seg z =>
    obtain ⟨ea, ⟨-, rfl⟩ | ⟨arc, x, y, hs, -, -, -, rfl⟩⟩ := h
    · rfl
    · show some _ = some (⟨false, seg.p2, some z⟩ : Stop K)
      unfold Seg.p2; rw [hs]; rfl

/-- A forced letter is always written. -/
theorem command_forced (g : Gen K) (cw : Bool) (kw : Kw K) (hm : g.cfg.axisMap = fun _ => none) (i j : K) (hi : kw.args 'I' = some i)
    (hj : kw.args 'J' = some j) (hf : kw.force = ['I', 'J']) :
    ∃ b, Adds g (g.command (if cw then "G02".toList else "G03".toList) kw) [b] ∧ b.cmd = (if cw then "G02".toList else "G03".toList) ∧
      (⟨['I'], .num g.cfg.digits (g.cfg.outVal 'I' i)⟩ : Word K) ∈ b.words ∧ (⟨['J'], .num g.cfg.digits (g.cfg.outVal 'J' j)⟩ : Word K) ∈ b.words := by
  have hcan : canonicalCmd (if cw then "G02".toList else "G03".toList) = (if cw then "G02".toList else "G03".toList) := by cases cw <;> decide
  have hne : (if cw then "G02".toList else "G03".toList : Str).isEmpty = false := by cases cw <;> decide
  generalize (if cw then "G02".toList else "G03".toList : Str) = cmd at hcan hne ⊢
  have hnv : ∀ base, g.newVal base { kw with params := none } 'I' = some i ∧ g.newVal base { kw with params := none } 'J' = some j := by
    intro base
    unfold Gen.newVal
    simp only [hi, hj, hf, Cfg.effVal]
    constructor <;> simp
  have hpp : ∀ base, g.posParams base { kw with params := none } 'I' = some (g.cfg.outVal 'I' i) ∧
      g.posParams base { kw with params := none } 'J' = some (g.cfg.outVal 'J' j) := by
    intro base
    unfold Gen.posParams
    rw [(hnv base).1, (hnv base).2]
    exact ⟨rfl, rfl⟩
  have hem : ∀ base, g.emitsParams base { kw with params := none } = true := by
    intro base
    unfold Gen.emitsParams
    have hsub : ['I', 'J'].Sublist (posKeys.filter fun k => (g.newVal base { kw with params := none } k).isSome) := by
      have h1 : ['I', 'J'] = (['I', 'J'] : List Char).filter fun k => (g.newVal base { kw with params := none } k).isSome := by
        simp [(hnv base).1, (hnv base).2]
      rw [h1]
      exact List.Sublist.filter _ (by decide)
    have hlen := hsub.length_le
    simp only [List.length_cons, List.length_nil] at hlen
    dsimp only
    rw [Bool.and_eq_true, Bool.or_eq_true, decide_eq_true_eq, decide_eq_true_eq]
    exact ⟨by omega, Or.inl (by omega)⟩
  unfold Gen.command
  rw [hne, gcodeCore_eq, hcan, if_pos (hem _), if_neg (by decide)]
  refine ⟨_, adds_writeLine (g.afterLoop _ _) _ _, rfl, ?_, ?_⟩
  · show _ ∈ g.cfg.wordsOf _
    rw [wordsOf_plain _ hm, List.mem_filterMap]
    exact ⟨'I', by decide, by rw [(hpp _).1]; rfl⟩
  · show _ ∈ g.cfg.wordsOf _
    rw [wordsOf_plain _ hm, List.mem_filterMap]
    exact ⟨'J', by decide, by rw [(hpp _).2]; rfl⟩

/-- The blocks of a leg. -/
theorem leg_blocks {e : Env K} (g : Gen K) (t : Leg K) (c : Call K) (hl : LegCall e g t c) (hc : CamCall c) (hti : TrackInv g)
    (hok : (g.step c).2 = none) :
    ∃ idle move, Adds g (g.step c).1 (idle ++ move) ∧ StillXY g.machine idle ∧ move.length ≤ 1 ∧
      match t with
      | .traverse _ => ∀ b ∈ move, b.cmd = "G00".toList
      | .cut seg _ => idle = [] ∧
        ((∀ a, seg.shape ≠ .arc a) → ∀ b ∈ move, b.cmd = "G01".toList) ∧
        ∀ a, seg.shape = .arc a → ∃ x y, g.last 'X' = some x ∧ g.last 'Y' = some y ∧
          (floatEq e.eps (a.center.distance ⟨x, y⟩) a.radius = false → ∀ b ∈ move, b.cmd = "G01".toList) ∧
          (floatEq e.eps (a.center.distance ⟨x, y⟩) a.radius = true → ∃ b, move = [b] ∧ b.cmd = (if a.isClockwise then "G02".toList else "G03".toList) ∧
            ∃ dg, (⟨['I'], .num dg (g.cfg.outVal 'I' (a.center.sub a.p1).x)⟩ : Word K) ∈ b.words ∧
              (⟨['J'], .num dg (g.cfg.outVal 'J' (a.center.sub a.p1).y)⟩ : Word K) ∈ b.words) := by
  cases t with
  | traverse p =>
    obtain ⟨a, rfl⟩ := hl
    dsimp only [Gen.step] at hok ⊢
    unfold Gen.rapidMove
    dsimp only
    have h1 : ∃ l, Adds g (if g.rapidLifts then g.toolUp else g) l ∧ StillXY g.machine l := by
      split
      · have htu : CamCall (.toolUp true none none : Call K) := rfl
        obtain ⟨l, hl, hn⟩ := (call_blocks g (.toolUp true none none) htu (fun _ => ⟨rfl, rfl⟩) hti.map hti.altUp hti.altDown rfl).1 rfl
        have hti' : TrackInv (g.step (.toolUp true none none)).1 := trackInv_step g _ hti trivial
        have hcfg : (g.step (.toolUp true none none)).1.cfg = g.cfg := toolUp_cfg g _ _ _
        have hlast : (g.step (.toolUp true none none)).1.last = upd g.last 'Z' (some g.cfg.zsafe) := toolUp_Z g _ _ _ hti.altUp
        refine ⟨l, hl, hn, ?_, ?_⟩ <;> rw [← hl.machine]
        · rw [hti'.agree 'X' (by decide), hti.agree 'X' (by decide), hcfg, hlast, upd_ne _ _ (by decide)]
        · rw [hti'.agree 'Y' (by decide), hti.agree 'Y' (by decide), hcfg, hlast, upd_ne _ _ (by decide)]
      · exact ⟨[], adds_refl _, StillXY.nil _⟩
    obtain ⟨l1, ha, hh⟩ := h1
    generalize (if g.rapidLifts then g.toolUp else g) = g1 at ha ⊢
    obtain ⟨l2, hb, hlen, hcmd⟩ := command_one g1 "G00".toList
      { args := kwOf [('X', some p.x), ('Y', some p.y), ('Z', some (maxZ g1.cfg.zsafe none)), ('A', some a)], comment := none }
    refine ⟨l1, l2, ha.trans hb, hh, hlen, ?_⟩
    intro b hb'
    rw [hcmd b hb']
    decide
  | cut seg z =>
    obtain ⟨ea, ⟨hn, rfl⟩ | ⟨arc, x, y, hs, hx, hy, hr, rfl⟩⟩ := hl
    · have hfeed : ∃ l, Adds g (g.step (.feed (some seg.p2.x) (some seg.p2.y) (some z) (some ea) none none)).1 l ∧ l.length ≤ 1 ∧
          ∀ b ∈ l, b.cmd = "G01".toList := by
        dsimp only [Gen.step]
        unfold Gen.feed
        split
        · exact ⟨[], adds_refl g, by simp, by simp⟩
        · rename_i f' hf
          obtain ⟨l2, hb, hlen, hcmd⟩ := command_one g "G01".toList
            { args := kwOf [('X', some seg.p2.x), ('Y', some seg.p2.y), ('Z', some z), ('A', some ea), ('F', some f')], comment := none }
          refine ⟨l2, hb, hlen, ?_⟩
          intro b hb'
          rw [hcmd b hb']
          decide
      obtain ⟨l, ha, hlen, hcmd⟩ := hfeed
      refine ⟨[], l, ha, StillXY.nil _, hlen, rfl, fun _ => hcmd, ?_⟩
      intro a hsa
      obtain ⟨x, y, hx, hy, hf⟩ := hn a hsa
      exact ⟨x, y, hx, hy, fun _ => hcmd, fun h => by rw [hf] at h; cases h⟩
    · dsimp only [Gen.step] at hok ⊢
      unfold Gen.feedArc at hok ⊢
      rw [hx, hy] at hok ⊢
      dsimp only at hok ⊢
      split at hok
      · cases hok
      · rename_i h1
        rw [if_neg h1]
        obtain ⟨b, hb, hcmd, hI, hJ⟩ := command_forced g arc.isClockwise
          { args := kwOf [('X', some arc.p2.x), ('Y', some arc.p2.y), ('Z', some z), ('I', some (arc.center.sub arc.p1).x),
              ('J', some (arc.center.sub arc.p1).y), ('A', some ea), ('F', some ((none : Option K).getD g.cfg.xyfeed))], force := ['I', 'J'], comment := none }
          hti.map _ _ rfl rfl rfl
        refine ⟨[], [b], hb, StillXY.nil _, by simp, rfl, fun h => absurd hs (h arc), ?_⟩
        intro a hsa
        rw [hs] at hsa
        cases hsa
        exact ⟨x, y, rfl, rfl, fun h => by (rw [hr] at h; cases h), fun _ => ⟨b, rfl, hcmd, _, hI, hJ⟩⟩

/-- The coordinate of an axis after a command. -/
theorem lands_command (g : Gen K) (cmd : Str) (hcmd : cmd ≠ []) (kw : Kw K) (k : Char) (hk : k = 'X' ∨ k = 'Y') (v : K) (hv : kw.args k = some v) :
    (g.command cmd kw).last k = some v ∨ ((g.command cmd kw).last k = g.last k ∧ ∃ l, g.last k = some l ∧ (g.cfg.tol <. PyFloat.abs (v -. l)) = false) := by
  have hA : k ≠ 'A' := by rcases hk with rfl | rfl <;> decide
  have hkp : k ∈ posKeys := by rcases hk with rfl | rfl <;> decide
  have hl : ∀ c kw', (g.gcodeCore c kw').last k = (g.afterLoop (baseCmd c) kw').last k := by
    intro c kw'
    rw [gcodeCore_eq]; split
    · rfl
    · split <;> rfl
  unfold Gen.command
  rw [if_neg (by simpa using hcmd), hl]
  simp only [Gen.afterLoop, hkp, if_true]
  cases hn : g.newVal (baseCmd (canonicalCmd cmd)) { kw with params := none } k with
  | some w =>
    left
    simp only [Gen.newVal, hv] at hn
    split at hn
    · cases hn; simp [Cfg.effVal, hA]
    · cases hn
  | none =>
    right
    refine ⟨rfl, ?_⟩
    simp only [Gen.newVal, hv] at hn
    split at hn
    · cases hn
    · rename_i h
      push Not at h
      have hch := h.2.1
      unfold Gen.hasChanged at hch
      cases hg : g.last k with
      | none => rw [hg] at hch; simp at hch
      | some l =>
        rw [hg] at hch
        refine ⟨l, rfl, ?_⟩
        simpa [Cfg.effVal, hA] using hch

/-- The coordinate of an axis after the call of a leg. -/
theorem lands_step {e : Env K} {g : Gen K} {t : Leg K} {c : Call K} (h : LegCall e g t c) (hau : g.cfg.altUp = none) (hok : (g.step c).2 = none) (k : Char) (v : K)
    (hk : (k = 'X' ∧ v = t.stop.p.x) ∨ (k = 'Y' ∧ v = t.stop.p.y)) :
    (g.step c).1.last k = some v ∨ ((g.step c).1.last k = g.last k ∧ ∃ l, g.last k = some l ∧ (g.cfg.tol <. PyFloat.abs (v -. l)) = false) := by
  have hk' : k = 'X' ∨ k = 'Y' := hk.imp And.left And.left
  cases t with
  | traverse p =>
    obtain ⟨a, rfl⟩ := h
    dsimp only [Gen.step]
    unfold Gen.rapidMove
    dsimp only
    have hl : (if g.rapidLifts then g.toolUp else g).last k = g.last k := by
      split
      · rw [toolUp_Z _ _ _ _ hau, upd_ne _ _ (by rcases hk' with rfl | rfl <;> decide)]
      · rfl
    have hc : (if g.rapidLifts then g.toolUp else g).cfg = g.cfg := by
      split
      · exact toolUp_cfg _ _ _ _
      · rfl
    generalize (if g.rapidLifts then g.toolUp else g) = g1 at hl hc ⊢
    rw [← hl, ← hc]
    refine lands_command g1 _ (by decide) _ k hk' v ?_
    rcases hk with ⟨rfl, rfl⟩ | ⟨rfl, rfl⟩ <;> rfl
  | cut seg z =>
    obtain ⟨ea, ⟨-, rfl⟩ | ⟨arc, x, y, hs, hx, hy, -, rfl⟩⟩ := h
    · dsimp only [Gen.step]
      unfold Gen.feed
      split
      · rename_i hp
        unfold Cfg.pickFeed at hp
        simp at hp
      · refine lands_command g _ (by decide) _ k hk' v ?_
        rcases hk with ⟨rfl, rfl⟩ | ⟨rfl, rfl⟩ <;> rfl
    · dsimp only [Gen.step] at hok ⊢
      unfold Gen.feedArc at hok ⊢
      rw [hx, hy] at hok ⊢
      dsimp only at hok ⊢
      split at hok
      · cases hok
      · rename_i h1
        rw [if_neg h1]
        refine lands_command g _ (by cases arc.isClockwise <;> decide) _ k hk' v ?_
        have hp2 : seg.p2 = arc.p2 := by unfold Seg.p2; rw [hs]; rfl
        rcases hk with ⟨rfl, rfl⟩ | ⟨rfl, rfl⟩
        · show _ = some seg.p2.x
          rw [hp2]; rfl
        · show _ = some seg.p2.y
          rw [hp2]; rfl

/-- The other calls leave X and Y alone. -/
theorem idle_last (g : Gen K) (c : Call K) (hc : CamCall c) (hw : Whole c) (hst : stopOf c = none) (hti : TrackInv g) (hwr : g.cfg.wrapAngles = false)
    (hok : (g.step c).2 = none) (k : Char) (hk : k = 'X' ∨ k = 'Y') : (g.step c).1.last k = g.last k := by
  by_cases hm : MotionOrIdle c
  · refine (near_step g c hm hwr hti.altUp hti.altDown k (by rcases hk with rfl | rfl <;> decide) hok).2 ?_
    have h0 := hw hst
    have hr : c.request g.cfg.zsafe k = c.request zero k := by
      cases c <;> rcases hk with rfl | rfl <;> rfl
    rw [hr]
    rcases hk with rfl | rfl
    · exact h0.1
    · exact h0.2
  · cases c <;> first | exact hc.elim | exact absurd trivial hm | skip
    · rename_i today com
      dsimp only [Gen.step] at hok ⊢
      rw [header_eq] at hok ⊢
      dsimp only at hok ⊢
      have hq' : ((((g.headerFront today com).headerModal).writeRaw ['\n']).comment (.one "Default feed rate".toList)).last = g.last := by
        rw [(quiet_comment _ _ _).last, writeRaw_last]
        have : ∀ g : Gen K, g.headerModal.last = g.last := by
          intro g; unfold Gen.headerModal Gen.headerBlend; dsimp only
          repeat' split
          all_goals rfl
        rw [this, (quiet_headerFront g today com).last]
      generalize (((g.headerFront today com).headerModal).writeRaw ['\n']).comment (.one "Default feed rate".toList) = g2 at hq' hok ⊢
      have h3 : (g2.feedRate g2.cfg.xyfeed).1.last k = g2.last k := by
        unfold Gen.feedRate
        have hF : ∀ l : Char → Option K, (upd l 'F' (some g2.cfg.xyfeed)) k = l k := fun l => upd_ne _ _ (by rcases hk with rfl | rfl <;> decide)
        split
        · dsimp only
          exact hF _
        · rfl
      generalize g2.feedRate g2.cfg.xyfeed = r at h3 hok ⊢
      obtain ⟨g5, er⟩ := r
      cases er
      · dsimp only at h3 ⊢; rw [writeRaw_last, h3, hq']
      · dsimp only at h3 ⊢; rw [h3, hq']
    · show (Gen.footer _).last k = _
      unfold Gen.footer
      dsimp only
      rw [show (Gen.writeRaw g ['\n']).offsetReset = false from hti.reset]
      rfl
    · rfl

theorem journey_run {e : Env K} (c0 : Cfg K) {g : Gen K} {cs : List (Call K)} {ls : List (Leg K)} (h : Ann e g cs ls) (hcc : ∀ c ∈ cs, CamCall c)
    (hok : AllOk g cs) (hti : TrackInv g) (hwr : g.cfg.wrapAngles = false) (hcfg : ∃ hs, g.cfg = { c0 with headerComments := hs }) :
    ∃ l, Adds g (g.run cs) l ∧ Journey (Made e c0) g.machine l ls := by
  have hgo : ∀ (g : Gen K) (c : Call K), CamCall c → TrackInv g → g.cfg.wrapAngles = false → (∃ hs, g.cfg = { c0 with headerComments := hs }) →
      TrackInv (g.step c).1 ∧ (g.step c).1.cfg.wrapAngles = false ∧ ∃ hs, (g.step c).1.cfg = { c0 with headerComments := hs } := by
    intro g c hc hti hwr hcfg
    obtain ⟨hs', hcfg'⟩ := cam_run_cfg [c] (by simpa using hc) g
    have hcfg1 : (g.step c).1.cfg = { g.cfg with headerComments := hs' } := hcfg'
    exact ⟨trackInv_step g c hti hc.trackable, by rw [hcfg1]; exact hwr, by obtain ⟨hs, h⟩ := hcfg; exact ⟨hs', by rw [hcfg1, h]⟩⟩
  induction h with
  | nil g => exact ⟨[], adds_refl g, .done _ _ (StillXY.nil _)⟩
  | idle g c cs ls h1 h2 _ ih =>
    have hc := hcc c (by simp)
    obtain ⟨ht', hw', hc'⟩ := hgo g c hc hti hwr hcfg
    obtain ⟨l2, ha2, hj2⟩ := ih (fun x hx => hcc x (by simp [hx])) hok.2 ht' hw' hc'
    obtain ⟨l1, ha1, hl1⟩ := (call_blocks g c hc h2 hti.map hti.altUp hti.altDown hok.1).1 h1
    obtain ⟨hs0, h0⟩ := hcfg
    obtain ⟨hs1, hcfg1⟩ := hc'
    have hstill : ∀ k, k = 'X' ∨ k = 'Y' → (g.machine.run l1).pos k = g.machine.pos k := by
      intro k hk
      have hkt : k ∈ trackedAxes := by rcases hk with rfl | rfl <;> decide
      rw [← ha1.machine, ht'.agree k hkt, hti.agree k hkt, idle_last g c hc h2 h1 hti hwr hok.1 k hk, hcfg1, h0]
      rfl
    refine ⟨l1 ++ l2, ha1.trans ha2, Journey.idle ⟨hl1, hstill 'X' (.inl rfl), hstill 'Y' (.inr rfl)⟩ ?_⟩
    rw [← ha1.machine]
    exact hj2
  | leg g c cs t ls hl _ ih =>
    have hc := hcc c (by simp)
    obtain ⟨ht', hw', hc'⟩ := hgo g c hc hti hwr hcfg
    obtain ⟨l2, ha2, hj2⟩ := ih (fun x hx => hcc x (by simp [hx])) hok.2 ht' hw' hc'
    obtain ⟨idle, move, ha1, h1, h2, h3⟩ := leg_blocks g t c hl hc hti hok.1
    have hmach : g.machine.run (idle ++ move) = (g.step c).1.machine := ha1.machine.symm
    refine ⟨idle ++ move ++ l2, ha1.trans ha2, .leg _ idle move l2 t _ h1 h2 ?_ (by rw [hmach]; exact hj2)⟩
    rw [hmach]
    obtain ⟨hs0, h0⟩ := hcfg
    obtain ⟨hs1, hcfg1⟩ := hc'
    constructor
    · obtain ⟨hmi, hx, hy, hz⟩ := stop_request (legCall_stop hl) g.cfg.zsafe
      have hnear : ∀ k ∈ ['X', 'Y', 'Z', 'A'], ∀ v, c.request g.cfg.zsafe k = some v →
          ∃ x, (g.step c).1.machine.pos k = some (specImage c0 k x) ∧ Near c0 k x v := by
        intro k hk v hv
        obtain ⟨l, hl, hnl⟩ := (near_step g c hmi hwr hti.altUp hti.altDown k hk hok.1).1 v hv
        refine ⟨l, ?_, ?_⟩
        · rw [ht'.agree k hk, hl, ← specImage_eq _ _ hk, hcfg1]
          rfl
        · rw [h0] at hnl
          exact hnl
      have hland : ∀ k v, (k = 'X' ∧ v = t.stop.p.x) ∨ (k = 'Y' ∧ v = t.stop.p.y) → LandsK c0 (g.machine.run idle) (g.step c).1.machine k v := by
        intro k v hkv
        have hk' : k = 'X' ∨ k = 'Y' := hkv.imp And.left And.left
        have hkt : k ∈ trackedAxes := by rcases hk' with rfl | rfl <;> decide
        have hm0 : (g.machine.run idle).pos k = (g.last k).map (specImage c0 k) := by
          have : (g.machine.run idle).pos k = g.machine.pos k := by
            rcases hk' with rfl | rfl
            · exact h1.2.1
            · exact h1.2.2
          rw [this, hti.agree k hkt, ← specImage_eq _ _ hkt, h0]
          rfl
        have hm1 : (g.step c).1.machine.pos k = ((g.step c).1.last k).map (specImage c0 k) := by
          rw [ht'.agree k hkt, ← specImage_eq _ _ hkt, hcfg1]
          rfl
        rcases lands_step hl hti.altUp hok.1 k v hkv with h | ⟨h, l, hgl, hnl⟩
        · left
          rw [hm1, h]; rfl
        · right
          refine ⟨by rw [hm0, hm1, h], l, by rw [hm0, hgl]; rfl, ?_⟩
          rw [h0] at hnl
          exact hnl
      exact ⟨hland _ _ (.inl ⟨rfl, rfl⟩), hland _ _ (.inr ⟨rfl, rfl⟩), fun z h => hnear 'Z' (by simp) z (hz z h)⟩
    · cases t with
      | traverse p => exact h3
      | cut seg z =>
        obtain ⟨hi, hline, harc⟩ := h3
        refine ⟨hline, ?_⟩
        intro a ha
        obtain ⟨x, y, hx, hy, hno, hyes⟩ := harc a ha
        subst hi
        have hp : ∀ k ∈ ['X', 'Y', 'Z', 'A'], ∀ v, g.last k = some v → (g.machine.run []).pos k = some (specImage c0 k v) := by
          intro k hk v hv
          show g.machine.pos k = _
          rw [hti.agree k hk, hv, ← specImage_eq _ _ hk, h0]
          rfl
        refine ⟨x, y, hp 'X' (by simp) x hx, hp 'Y' (by simp) y hy, hno, ?_⟩
        intro hr
        obtain ⟨b, hb, hcmd, dg, hI, hJ⟩ := hyes hr
        rw [h0] at hI hJ
        exact ⟨b, hb, hcmd, dg, hI, hJ⟩

theorem chosen_legs (o : TOpts K) (ds : List K) (paths : List (Path K)) :
    programLegs ds (chosen (initCam o) paths) = programLegs ds paths := by
  have key : ∀ (d : K) (n : Nat) (l : List (Path K)), 1 ≤ n →
      (((enumFrom n l).filter (Selected (initCam o))).map (·.2)).flatMap (legsOf d) = l.flatMap (legsOf d) := by
    intro d n l
    induction l generalizing n with
    | nil => intro _; rfl
    | cons p l ih =>
      intro hn
      rw [enumFrom, List.filter_cons]
      have hsel : Selected (initCam o) (n, p) = !p.isEmpty := by
        have h1 : (initCam o).pathCountStart = 1 := rfl
        have h2 : (1 : Int) ≤ (n : Int) := by exact_mod_cast hn
        simp [Selected, h1, h2]
      rw [hsel]
      cases p with
      | nil => simpa [legsOf] using ih (n + 1) (by omega)
      | cons a r => simp [ih (n + 1) (by omega)]
  unfold programLegs chosen
  congr 1
  funext d
  exact key d 1 paths (le_refl _)

end

/-- Specification: the block states the centre of its circle, relative to where it starts, in machine units of size `scale`. -/
def HasCentre (scale : ℝ) (b : Block ℝ) (v : P ℝ) : Prop :=
  ∃ dg, (⟨['I'], .num dg (v.x / scale)⟩ : Word ℝ) ∈ b.words ∧ (⟨['J'], .num dg (v.y / scale)⟩ : Word ℝ) ∈ b.words

/-- Specification: the machine goes to exactly the coordinate `v` (in user units, of which `scale` are one of the machine), or stays at a coordinate within `tol` of it. -/
def Lands (tol scale : ℝ) (m m' : Machine ℝ) (k : Char) (v : ℝ) : Prop :=
  ∃ x, m'.pos k = some x ∧ (x * scale = v ∨ (m.pos k = some x ∧ |x * scale - v| ≤ tol))

/-- Specification: how a leg is made.  In every case the machine ends, in X and Y, at exactly the end of the leg, except for coordinates that it leaves alone since they are
within `tol` already; the height is within `tol`.  A traverse is a rapid move and a line a straight feed.
An arc is a circular feed, clockwise if its angle is negative, which states the vector from the start of the arc to its centre, provided that the machine starts on the circle, up to
`eps`; otherwise it is a straight feed too. -/
def WellMade (tol eps scale : ℝ) (m : Machine ℝ) (t : Leg ℝ) (move : List (Block ℝ)) (m' : Machine ℝ) : Prop :=
  (Lands tol scale m m' 'X' t.stop.p.x ∧ Lands tol scale m m' 'Y' t.stop.p.y ∧ ∀ z, t.stop.z = some z → ∃ w, m'.pos 'Z' = some w ∧ |w * scale - z| ≤ tol) ∧
  match t with
  | .traverse _ => ∀ b ∈ move, b.cmd = "G00".toList
  | .cut seg _ =>
    ((∀ a, seg.shape ≠ .arc a) → ∀ b ∈ move, b.cmd = "G01".toList) ∧
    ∀ a, seg.shape = .arc a → ∃ x y, m.pos 'X' = some x ∧ m.pos 'Y' = some y ∧
      (eps ≤ |Real.sqrt (sqDist a.center ⟨x * scale, y * scale⟩) - a.radius| → ∀ b ∈ move, b.cmd = "G01".toList) ∧
      (|Real.sqrt (sqDist a.center ⟨x * scale, y * scale⟩) - a.radius| < eps → ∃ b, move = [b] ∧
        b.cmd = (if a.angle < 0 then "G02".toList else "G03".toList) ∧ HasCentre scale b ⟨a.center.x - a.p1.x, a.center.y - a.p1.y⟩)

/-- **C188**, lines straight and arcs round, up to the test whether the machine is on the circle: every completed program over lines and arcs makes the legs of
its paths, in this order and nothing else in X and Y, each with one block of the right kind. -/
theorem C188_journey_partial (v : Str) (doc : DocInfo ℝ) (hc : doc.conv.Positive) (hs : doc.viewScale ≠ 0) (e : Env ℝ) (o : TOpts ℝ) (ht : 0 ≤ o.tolerance)
    (l paths : List (Path ℝ)) (ds : List ℝ) (s : Cam ℝ) (h : Generated (realEnv v) doc e o l ds s) (herr : s.err = none)
    (hprep : prepare e (initCam o) o.tolerance l = .ok paths) (hp : ∀ p ∈ paths, SimplePath p) :
    ∃ u : LenUnit, (u = .inch ∨ u = .mm) ∧ gcodeUnit o.gcodeUnits doc.docUnits = .ok u.name ∧
      Journey (WellMade o.tolerance e.eps (u.size doc.conv.em doc.conv.ex * doc.viewScale)) Machine.off (blocksOf s.gen.out) (programLegs ds paths) := by
  obtain ⟨u, hu, hgu, himg⟩ := generated_scale hc hs h
  refine ⟨u, hu, hgu, ?_⟩
  obtain ⟨g, hg, hgen⟩ := h
  obtain ⟨af, u', k, n, -, -, -, -, -, -, hk, -, -, -, -, -, -, -, htol, hax, hof⟩ := initGcode_fields hg
  obtain ⟨cs, hext, ha⟩ := generate_legs (o := initCam o) rfl hgen herr (by
    rw [show (Cam.init g).gen.cfg.tol = o.tolerance from htol]; exact hprep) hp
  obtain ⟨cs', hext', hcs'⟩ := generate_calls hgen
  have hcc : cs' = cs := by
    have h1 := hext.1
    rw [hext'.1] at h1
    exact List.append_cancel_left h1
  subst hcc
  rw [chosen_legs] at ha
  have hf := initGcode_fresh hg
  obtain ⟨bl, hadd, htour⟩ := journey_run g.cfg ha hcs' (hext.ok herr).2 (trackInv_fresh g hf) (initGcode_wrap hg) ⟨_, rfl⟩
  have hgen' : s.gen = g.run cs' := hext.2
  have hb : blocksOf s.gen.out = bl := by
    rw [hgen', show blocksOf (g.run _).out = blocksOf g.out ++ bl from hadd, hf.out]
    rfl
  have hm : g.machine = Machine.off := by
    unfold Gen.machine
    rw [hf.out]; rfl
  rw [show (Cam.init g).gen.machine = Machine.off from hm] at htour
  rw [hb]
  refine htour.mono ?_
  intro m t l m' hr
  obtain ⟨hh, hcfg⟩ := cam_run_cfg _ hcs' g
  have himg' : ∀ k ∈ ['X', 'Y', 'Z'], ∀ x, specImage g.cfg k x = x / (u.size doc.conv.em doc.conv.ex * doc.viewScale) := by
    intro k hk x
    rw [← himg k hk x, hgen', hcfg]
    rfl
  have hij : ∀ k ∈ ['I', 'J'], ∀ x, g.cfg.outVal k x = x / (u.size doc.conv.em doc.conv.ex * doc.viewScale) := by
    intro k hk x
    rw [← himg' 'X' (by simp) x]
    simp only [List.mem_cons, List.not_mem_nil, or_false] at hk
    rcases hk with rfl | rfl <;> simp [specImage, Cfg.outVal, hax, hof]
  have hsc : u.size doc.conv.em doc.conv.ex * doc.viewScale ≠ 0 := mul_ne_zero (Svg.size_pos hc u).ne' hs
  generalize u.size doc.conv.em doc.conv.ex * doc.viewScale = sc at himg' hij hsc ⊢
  have hn : ∀ k ∈ ['X', 'Y', 'Z'], ∀ x v, Near g.cfg k x v → |specImage g.cfg k x * sc - v| ≤ o.tolerance := by
    intro k hk x v hnr
    rw [himg' k hk, div_mul_cancel₀ _ hsc, ← htol]
    refine near_real ?_ hnr (by rw [htol]; exact ht)
    rintro rfl
    simp at hk
  have hlands : ∀ k ∈ ['X', 'Y'], ∀ v, LandsK g.cfg m m' k v → Lands o.tolerance sc m m' k v := by
    intro k hk v hland
    have hk3 : k ∈ ['X', 'Y', 'Z'] := by
      simp only [List.mem_cons, List.not_mem_nil, or_false] at hk ⊢
      rcases hk with rfl | rfl <;> simp
    rcases hland with h | ⟨h1, l, h2, h3⟩
    · exact ⟨_, h, .inl (by rw [himg' k hk3, div_mul_cancel₀ _ hsc])⟩
    · refine ⟨_, h1.trans h2, .inr ⟨h2, ?_⟩⟩
      rw [himg' k hk3, div_mul_cancel₀ _ hsc, abs_sub_comm]
      simpa [htol] using h3
  obtain ⟨⟨hX, hY, hz⟩, hrest⟩ := hr
  refine ⟨⟨hlands 'X' (by simp) _ hX, hlands 'Y' (by simp) _ hY, ?_⟩, ?_⟩
  · intro z htz
    obtain ⟨w, hw, hwn⟩ := hz z htz
    exact ⟨_, hw, hn 'Z' (by simp) _ _ hwn⟩
  · cases t with
    | traverse p => exact hrest
    | cut seg z =>
      refine ⟨hrest.1, ?_⟩
      intro a hsa
      obtain ⟨x, y, hx, hy, hno, hyes⟩ := hrest.2 a hsa
      refine ⟨_, _, hx, hy, ?_, ?_⟩ <;> rw [himg' 'X' (by simp), himg' 'Y' (by simp), div_mul_cancel₀ _ hsc, div_mul_cancel₀ _ hsc, ← distance_real]
      · intro hle
        refine hno ?_
        rw [← Bool.not_eq_true, floatEq_iff]
        exact not_lt.2 hle
      · intro hlt
        obtain ⟨b, hb, hcmd, dg, hI, hJ⟩ := hyes ((floatEq_iff _ _ _).2 hlt)
        have hcw : a.isClockwise = decide (a.angle < 0) := by
          unfold Arc.isClockwise; simp
        refine ⟨b, hb, by rw [hcmd, hcw]; simp, dg, ?_, ?_⟩
        · rw [hij 'I' (by simp)] at hI; simpa [P.sub] using hI
        · rw [hij 'J' (by simp)] at hJ; simpa [P.sub] using hJ

/-! ## When arcs are round -/

theorem sqrt_triangle (p q r : P ℝ) : Real.sqrt (sqDist p r) ≤ Real.sqrt (sqDist p q) + Real.sqrt (sqDist q r) := by
  have hn : ∀ a b : P ℝ, 0 ≤ sqDist a b := fun a b => by unfold sqDist; positivity
  refine le_of_forall_pos_lt_add ?_
  intro ε hε
  have h1 : sqDist p q < (Real.sqrt (sqDist p q) + ε / 2) ^ 2 := by
    have := Real.sq_sqrt (hn p q)
    nlinarith [Real.sqrt_nonneg (sqDist p q)]
  have h2 : sqDist q r < (Real.sqrt (sqDist q r) + ε / 2) ^ 2 := by
    have := Real.sq_sqrt (hn q r)
    nlinarith [Real.sqrt_nonneg (sqDist q r)]
  have h3 := sqDist_triangle _ _ (by positivity) (by positivity) p q r h1 h2
  rw [show Real.sqrt (sqDist p q) + ε / 2 + (Real.sqrt (sqDist q r) + ε / 2) = Real.sqrt (sqDist p q) + Real.sqrt (sqDist q r) + ε by ring] at h3
  exact (Real.sqrt_lt' (by positivity)).2 h3

theorem sqDist_comm' (p q : P ℝ) : sqDist p q = sqDist q p := by unfold sqDist; ring

/-- **C188**, arcs: an arc that starts closer than `eps` to where the machine is, is cut round: by one circular feed in its direction, about a centre that is as far from its
own as the machine is from its start. -/
theorem C188_round_partial (tol eps scale : ℝ) (hs : scale ≠ 0) (m m' : Machine ℝ) (seg : Seg ℝ) (z : ℝ) (move : List (Block ℝ))
    (h : WellMade tol eps scale m (.cut seg z) move m') (a : Arc ℝ) (ha : seg.shape = .arc a) (hon : a.OnCircle) (x y : ℝ) (hx : m.pos 'X' = some x)
    (hy : m.pos 'Y' = some y) (hd : Real.sqrt (sqDist a.p1 ⟨x * scale, y * scale⟩) < eps) :
    ∃ b i j dg, move = [b] ∧ b.cmd = (if a.angle < 0 then "G02".toList else "G03".toList) ∧ (⟨['I'], .num dg i⟩ : Word ℝ) ∈ b.words ∧
      (⟨['J'], .num dg j⟩ : Word ℝ) ∈ b.words ∧ sqDist a.center ⟨(x + i) * scale, (y + j) * scale⟩ = sqDist a.p1 ⟨x * scale, y * scale⟩ := by
  obtain ⟨-, -, harc⟩ := h
  obtain ⟨x', y', hx', hy', -, hyes⟩ := harc a ha
  rw [hx, Option.some.injEq] at hx'
  rw [hy, Option.some.injEq] at hy'
  subst hx' hy'
  have hr : Real.sqrt (sqDist a.center a.p1) = a.radius := by
    rw [sqDist_comm', hon.2.1, Real.sqrt_sq hon.1]
  have h1 := sqrt_triangle a.center a.p1 ⟨x * scale, y * scale⟩
  have h2 := sqrt_triangle a.center ⟨x * scale, y * scale⟩ a.p1
  rw [sqDist_comm' ⟨x * scale, y * scale⟩ a.p1] at h2
  obtain ⟨b, hb, hcmd, dg, hI, hJ⟩ := hyes (by rw [abs_lt]; constructor <;> linarith)
  refine ⟨b, _, _, dg, hb, hcmd, hI, hJ, ?_⟩
  unfold sqDist
  dsimp only
  rw [add_mul, add_mul, div_mul_cancel₀ _ hs, div_mul_cancel₀ _ hs]
  ring

/-- **C188**, the part that fails: there are settings and a half circle that starts within the tolerance of the tool, in X and in Y, and is nevertheless cut
along its diameter: with the tool (as the generator tracks it) at the origin, `generate_segment_gcode` ends with a straight feed to the end point. -/
theorem C188_refuted_round : ∃ (a : Arc ℝ) (tol : ℝ), a.OnCircle ∧ rotAbout a.center a.angle a.p1 = a.p2 ∧ a.angle = Real.pi ∧ |a.p1.x| < tol ∧ |a.p1.y| < tol ∧ a.radius = 1000 * tol ∧
    ∀ (e : Env ℝ) (o : Opts ℝ) (d : ℝ) (s : Cam ℝ), e.eps = tol → s.err = none → o.enableTangent = false → s.gen.last 'X' = some 0 → s.gen.last 'Y' = some 0 →
      (s.genSegment e o d ⟨.arc a, {}⟩).trace = s.trace ++ [.feed (some a.p2.x) (some a.p2.y) (some d) (some s.angle) none none] := by
  refine ⟨⟨⟨4 / 5, 4 / 5⟩, ⟨4 / 5 + 1200, 4 / 5 + 1600⟩, 1000, Real.pi, ⟨4 / 5 + 600, 4 / 5 + 800⟩⟩, 1, ?_, ?_, rfl, ?_, ?_, ?_, ?_⟩
  · refine ⟨by norm_num, ?_, ?_⟩ <;> norm_num [sqDist]
  · unfold rotAbout
    simp only [Real.cos_pi, Real.sin_pi]
    ext <;> norm_num
  · norm_num [abs_lt]
  · norm_num [abs_lt]
  · norm_num
  · intro e o d s he herr ho hx hy
    have hturn : ∀ s : Cam ℝ, s.turnTo e o ⟨.arc ⟨⟨4 / 5, 4 / 5⟩, ⟨4 / 5 + 1200, 4 / 5 + 1600⟩, 1000, Real.pi, ⟨4 / 5 + 600, 4 / 5 + 800⟩⟩, {}⟩ = (s, s.angle) := by
      intro s
      unfold Cam.turnTo
      simp [ho]
    have hround : floatEq e.eps ((⟨4 / 5 + 600, 4 / 5 + 800⟩ : P ℝ).distance ⟨0, 0⟩) 1000 = false := by
      rw [← Bool.not_eq_true, floatEq_iff, distance_real, he, not_lt]
      refine le_trans ?_ (le_abs_self _)
      rw [le_sub_iff_add_le]
      apply Real.le_sqrt_of_sq_le
      norm_num [sqDist]
    have hfeed : ∀ s : Cam ℝ, s.err = none → s.gen.last 'X' = some 0 → s.gen.last 'Y' = some 0 → ∀ ea : ℝ, s.feedSeg e
        ⟨.arc ⟨⟨4 / 5, 4 / 5⟩, ⟨4 / 5 + 1200, 4 / 5 + 1600⟩, 1000, Real.pi, ⟨4 / 5 + 600, 4 / 5 + 800⟩⟩, {}⟩ ea d =
        s.emit (.feed (some (4 / 5 + 1200)) (some (4 / 5 + 1600)) (some d) (some ea) none none) := by
      intro s _ hx hy ea
      unfold Cam.feedSeg
      dsimp only
      split
      · rename_i x y hx' hy'
        rw [hx, Option.some.injEq] at hx'
        rw [hy, Option.some.injEq] at hy'
        subst hx' hy'
        split
        · rename_i h
          rw [hround] at h
          cases h
        · rfl
      · rename_i h
        exact absurd hy (h 0 0 hx)
    unfold Cam.genSegment
    rw [if_neg (by simp [herr])]
    dsimp only
    rw [hturn]
    dsimp only
    rw [Option.getD_none, hfeed _ (by exact herr) (by exact hx) (by exact hy), emit_eq (by exact herr)]
    rfl

/-- A rapid move of a new generator to the origin leaves it tracking the origin. -/
theorem fresh_rapid (g : Gen ℝ) (hf : Fresh g) : ∀ k ∈ ['X', 'Y'], (g.step (.rapidMove (some 0) (some 0) none none none)).1.last k = some 0 := by
  intro k hk
  dsimp only [Gen.step]
  unfold Gen.rapidMove
  dsimp only
  have hk' : k ≠ 'Z' := by rintro rfl; simp at hk
  have hl : (if g.rapidLifts then g.toolUp else g).last k = none := by
    split
    · rw [toolUp_Z _ _ _ _ hf.altUp, upd_ne _ _ hk', hf.last]
    · rw [hf.last]
  generalize (if g.rapidLifts then g.toolUp else g) = g1 at hl ⊢
  have hlast : ∀ base : Str, (g1.afterLoop base { args := kwOf [('X', some (0 : ℝ)), ('Y', some 0), ('Z', some (maxZ g1.cfg.zsafe none)), ('A', none)], comment := none }).last k
      = some 0 := by
    intro base
    simp only [List.mem_cons, List.not_mem_nil, or_false] at hk
    rcases hk with rfl | rfl <;> simp [Gen.afterLoop, Gen.newVal, Gen.hasChanged, hl, kwOf, Cfg.effVal, posKeys]
  unfold Gen.command
  rw [if_neg (by decide), gcodeCore_eq]
  split
  · exact hlast _
  · split
    · exact hlast _
    · exact hlast _

/-- Non-vacuity of `C188_refuted_round`: a new generator after a rapid move to the origin. -/
example : ∃ s : Cam ℝ, s.err = none ∧ s.gen.last 'X' = some 0 ∧ s.gen.last 'Y' = some 0 := by
  obtain ⟨g, hg⟩ := initGcode_ok [] docR docR_positive (by simp [docR]) (toptR "mm".toList 1) (by intro h; cases h) .mm (.inr rfl) rfl (by norm_num [toptR])
  have := fresh_rapid g (initGcode_fresh hg)
  exact ⟨(Cam.init g).emit (.rapidMove (some 0) (some 0) none none none), rfl, this 'X' (by simp), this 'Y' (by simp)⟩

/-- A half circle and a line. -/
noncomputable def roundR : List (Path ℝ) := [[⟨.arc ⟨⟨0, 0⟩, ⟨90, 0⟩, 45, -Real.pi, ⟨45, 0⟩⟩, {}⟩, ⟨.line ⟨⟨90, 0⟩, ⟨90, 45⟩⟩, {}⟩]]

/-- Non-vacuity of `C188_journey_partial`: a completed program with an arc. -/
example : ∃ ds s, Generated (realEnv []) docR envR (toptR "mm".toList 1) roundR ds s ∧ s.err = none ∧
    prepare envR (initCam (toptR "mm".toList 1)) (toptR "mm".toList 1).tolerance roundR = .ok roundR ∧ ∀ p ∈ roundR, SimplePath p := by
  have hs : ∀ p ∈ roundR, SimplePath p := by
    intro p hp s hs
    simp only [roundR, List.mem_singleton] at hp
    subst hp
    simp only [List.mem_cons, List.not_mem_nil, or_false] at hs
    rcases hs with rfl | rfl
    · exact Or.inr ⟨_, rfl⟩
    · exact Or.inl ⟨_, rfl⟩
  have hp := C110_uncompensated envR (toptR "mm".toList 1) rfl rfl rfl rfl rfl rfl (toptR "mm".toList 1).tolerance roundR hs
  obtain ⟨ds, s, h1, h2⟩ := C104_completes_partial [] docR docR_positive (by simp [docR]) envR (by norm_num [envR]) (toptR "mm".toList 1) (by intro h; cases h) .mm (.inr rfl) rfl
    (by norm_num [toptR]) (by norm_num [toptR]) rfl roundR roundR hp
  exact ⟨ds, s, h1, h2, hp, hs⟩

/-- Non-vacuity of `C188_round_partial`: the half circle is on its circle, and the machine at its start. -/
example : (⟨⟨0, 0⟩, ⟨90, 0⟩, 45, -Real.pi, ⟨45, 0⟩⟩ : Arc ℝ).OnCircle ∧
    WellMade 1 1 1 { (Machine.off : Machine ℝ) with pos := fun _ => some 0 } (.cut ⟨.arc ⟨⟨0, 0⟩, ⟨90, 0⟩, 45, -Real.pi, ⟨45, 0⟩⟩, {}⟩ 0)
      [⟨"G02".toList, [⟨['I'], .num 2 45⟩, ⟨['J'], .num 2 0⟩]⟩] { (Machine.off : Machine ℝ) with pos := fun c => some (if c = 'X' then 90 else 0) } := by
  refine ⟨⟨by norm_num, by norm_num [sqDist], by norm_num [sqDist]⟩, ?_, ?_, ?_⟩
  · exact ⟨⟨90, rfl, .inl (by norm_num [Leg.stop, Seg.p2, Shape.p2])⟩, ⟨0, rfl, .inl (by norm_num [Leg.stop, Seg.p2, Shape.p2])⟩, fun z hz => ⟨0, rfl, by
      simp only [Leg.stop, Option.some.injEq] at hz; rw [← hz]; norm_num⟩⟩
  · exact fun h => absurd rfl (h _)
  · intro a ha
    simp only [Shape.arc.injEq] at ha
    subst ha
    refine ⟨0, 0, rfl, rfl, ?_, ?_⟩
    · intro h
      exfalso
      have : Real.sqrt (sqDist (⟨45, 0⟩ : P ℝ) ⟨0 * 1, 0 * 1⟩) = 45 := by
        rw [show sqDist (⟨45, 0⟩ : P ℝ) ⟨0 * 1, 0 * 1⟩ = 45 ^ 2 by norm_num [sqDist], Real.sqrt_sq (by norm_num)]
      rw [this] at h
      norm_num at h
    · intro _
      refine ⟨_, rfl, ?_, 2, ?_, ?_⟩
      · rw [if_pos (by have := Real.pi_pos; simp [this])]
      · simp
      · simp

end Verif.Cam
