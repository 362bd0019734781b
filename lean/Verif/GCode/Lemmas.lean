import Verif.GCode.Spec

/-! # Helper lemmas about the G-code generator model (no property statements here) -/

set_option linter.unusedSectionVars false

namespace Verif.GCode
open Verif PyFloat

variable {K : Type} [PyFloat K]

@[simp] theorem upd_same {α} (f : Char → α) (k v) : upd f k v k = v := by simp [upd]
theorem upd_ne {α} (f : Char → α) {k c} (v) (h : c ≠ k) : upd f k v c = f c := by simp [upd, h]

/-! ## writeLine / writeRaw -/

@[simp] theorem writeLine_last (g : Gen K) (b c) : (g.writeLine b c).last = g.last := rfl
@[simp] theorem writeLine_isToolUp (g : Gen K) (b c) : (g.writeLine b c).isToolUp = g.isToolUp := rfl
@[simp] theorem writeLine_offsetReset (g : Gen K) (b c) : (g.writeLine b c).offsetReset = g.offsetReset := rfl
@[simp] theorem writeLine_cfg (g : Gen K) (b c) : (g.writeLine b c).cfg = g.cfg := rfl
@[simp] theorem writeRaw_last (g : Gen K) (s) : (g.writeRaw s).last = g.last := rfl
@[simp] theorem writeRaw_isToolUp (g : Gen K) (s) : (g.writeRaw s).isToolUp = g.isToolUp := rfl
@[simp] theorem writeRaw_offsetReset (g : Gen K) (s) : (g.writeRaw s).offsetReset = g.offsetReset := rfl
@[simp] theorem writeRaw_cfg (g : Gen K) (s) : (g.writeRaw s).cfg = g.cfg := rfl
@[simp] theorem writeRaw_lineNumber (g : Gen K) (s) : (g.writeRaw s).lineNumber = g.lineNumber := rfl

theorem blocksOf_append (a b : List (Out K)) : blocksOf (a ++ b) = blocksOf a ++ blocksOf b := by
  simp [blocksOf, List.filterMap_append]

@[simp] theorem writeLine_blocks (g : Gen K) (b c) : blocksOf (g.writeLine b c).out = blocksOf g.out ++ [b] := by
  simp [Gen.writeLine, blocksOf_append]; simp [blocksOf]
@[simp] theorem writeRaw_blocks (g : Gen K) (s) : blocksOf (g.writeRaw s).out = blocksOf g.out := by
  simp [Gen.writeRaw, blocksOf_append]; simp [blocksOf]

theorem run_append (m : Machine K) (a b : List (Block K)) : m.run (a ++ b) = (m.run a).run b := by
  simp [Machine.run, List.foldl_append]

@[simp] theorem writeLine_machine (g : Gen K) (b c) : (g.writeLine b c).machine = g.machine.exec b := by
  simp [Gen.machine, run_append]; simp [Machine.run]
@[simp] theorem writeRaw_machine (g : Gen K) (s) : (g.writeRaw s).machine = g.machine := by
  simp [Gen.machine]

@[simp] theorem writeComment_last (g : Gen K) (c s) : (g.writeComment c s).last = g.last := by
  unfold Gen.writeComment; split <;> (try split) <;> (try split) <;> rfl
@[simp] theorem writeComment_isToolUp (g : Gen K) (c s) : (g.writeComment c s).isToolUp = g.isToolUp := by
  unfold Gen.writeComment; split <;> (try split) <;> (try split) <;> rfl
@[simp] theorem writeComment_offsetReset (g : Gen K) (c s) : (g.writeComment c s).offsetReset = g.offsetReset := by
  unfold Gen.writeComment; split <;> (try split) <;> (try split) <;> rfl
@[simp] theorem writeComment_cfg (g : Gen K) (c s) : (g.writeComment c s).cfg = g.cfg := by
  unfold Gen.writeComment; split <;> (try split) <;> (try split) <;> rfl
@[simp] theorem writeComment_lineNumber (g : Gen K) (c s) : (g.writeComment c s).lineNumber = g.lineNumber := by
  unfold Gen.writeComment; split <;> (try split) <;> (try split) <;> rfl
@[simp] theorem writeComment_blocks (g : Gen K) (c s) : blocksOf (g.writeComment c s).out = blocksOf g.out := by
  unfold Gen.writeComment; split <;> (try split) <;> (try split) <;> simp

/-- What a purely textual step leaves unchanged. -/
structure Quiet (g g' : Gen K) : Prop where
  last : g'.last = g.last
  up : g'.isToolUp = g.isToolUp
  reset : g'.offsetReset = g.offsetReset
  cfg : g'.cfg = g.cfg
  blocks : blocksOf g'.out = blocksOf g.out
  lineNumber : g'.lineNumber = g.lineNumber

theorem Quiet.refl (g : Gen K) : Quiet g g := ⟨rfl, rfl, rfl, rfl, rfl, rfl⟩
theorem Quiet.trans {a b c : Gen K} (h1 : Quiet a b) (h2 : Quiet b c) : Quiet a c :=
  ⟨h2.1.trans h1.1, h2.2.trans h1.2, h2.3.trans h1.3, h2.4.trans h1.4, h2.5.trans h1.5, h2.6.trans h1.6⟩
theorem Quiet.machine {a b : Gen K} (h : Quiet a b) : b.machine = a.machine := by simp [Gen.machine, h.blocks]

theorem quiet_writeRaw (g : Gen K) (s) : Quiet g (g.writeRaw s) :=
  ⟨rfl, rfl, rfl, rfl, by simp, rfl⟩
theorem quiet_writeComment (g : Gen K) (c s) : Quiet g (g.writeComment c s) :=
  ⟨by simp, by simp, by simp, by simp, by simp, by simp⟩
theorem quiet_foldl {α} (f : Gen K → α → Gen K) (hf : ∀ g a, Quiet g (f g a)) (l : List α) (g : Gen K) :
    Quiet g (l.foldl f g) := by
  induction l generalizing g with
  | nil => exact Quiet.refl g
  | cons a l ih => exact (hf g a).trans (ih _)
theorem quiet_comment (g : Gen K) (c s) : Quiet g (g.comment c s) := by
  unfold Gen.comment
  split
  · cases c
    · exact quiet_writeComment _ _ _
    · exact quiet_writeComment _ _ _
    · exact quiet_foldl _ (fun g s' => quiet_writeComment g (some s') s) _ _
  · exact Quiet.refl g

/-! ## The parameter loop in closed form -/

/-- The new tracked value the loop stores for key `k`, if it stores one. -/
def Gen.newVal (g : Gen K) (base : Str) (kw : Kw K) (k : Char) : Option K :=
  match kw.args k with
  | none => none
  | some v0 =>
    let v := g.cfg.effVal k v0
    if k ∈ kw.force ∨ g.hasChanged k v = true ∨ base ∈ nonmodalGroup then some v else none

/-- The tool-up flag after the loop. -/
def Gen.upAfter (g : Gen K) (nz : Option K) : Bool :=
  match nz with
  | some v => if g.isToolUp ∧ (g.cfg.axisVal 'Z' v <. g.cfg.zsafe) = true then false else g.isToolUp
  | none => g.isToolUp

theorem paramStep_eq (g : Gen K) (base kw pp k) :
    g.paramStep base kw pp k =
      match g.newVal base kw k with
      | none => (g, pp)
      | some v => ({ g with last := upd g.last k (some v),
                            isToolUp := if k = 'Z' then g.upAfter (some v) else g.isToolUp },
                   upd pp k (some (g.cfg.outVal k v))) := by
  unfold Gen.paramStep Gen.newVal
  cases h : kw.args k with
  | none => rfl
  | some v0 =>
    dsimp only
    split <;> rename_i h1
    · dsimp only
      by_cases hz : k = 'Z'
      · subst hz; simp [Gen.upAfter]
      · simp [hz]
    · rfl

theorem newVal_congr (g g' : Gen K) (base kw k) (h1 : g'.last k = g.last k) (h2 : g'.cfg = g.cfg) :
    g'.newVal base kw k = g.newVal base kw k := by
  unfold Gen.newVal Gen.hasChanged
  simp only [h1, h2]

theorem paramFold (base : Str) (kw : Kw K) (l : List Char) (hn : l.Nodup) (g : Gen K) (pp : Char → Option K) :
    l.foldl (fun s k => s.1.paramStep base kw s.2 k) (g, pp) =
      ({ g with
          last := fun c => if c ∈ l then (g.newVal base kw c).or (g.last c) else g.last c
          isToolUp := if 'Z' ∈ l then g.upAfter (g.newVal base kw 'Z') else g.isToolUp },
       fun c => if c ∈ l then ((g.newVal base kw c).map (g.cfg.outVal c)).or (pp c) else pp c) := by
  induction l generalizing g pp with
  | nil => simp
  | cons k l ih =>
    have hk : k ∉ l := (List.nodup_cons.mp hn).1
    have hl : l.Nodup := (List.nodup_cons.mp hn).2
    rw [List.foldl_cons]
    dsimp only
    rw [paramStep_eq]
    cases hv : g.newVal base kw k with
    | none =>
      dsimp only
      rw [ih hl]
      refine Prod.ext ?_ ?_
      · dsimp only
        congr 1
        · funext c
          by_cases hc : c = k
          · subst hc; simp [hk, hv]
          · simp [hc]
        · by_cases hz : 'Z' = k
          · subst hz; simp [hk, hv, Gen.upAfter]
          · simp [hz]
      · dsimp only
        funext c
        by_cases hc : c = k
        · subst hc; simp [hk, hv]
        · simp [hc]
    | some v =>
      dsimp only
      rw [ih hl]
      have hnv : ∀ (b : Bool) (c : Char), c ≠ k →
          Gen.newVal ⟨g.cfg, upd g.last k (some v), b, g.offsetReset, g.lineNumber, g.out⟩ base kw c
            = g.newVal base kw c := by
        intro b c hc
        exact newVal_congr _ _ _ _ _ (upd_ne _ _ hc) rfl
      refine Prod.ext ?_ ?_
      · dsimp only
        congr 1
        · funext c
          by_cases hc : c = k
          · subst hc; simp [hk, hv]
          · simp only [List.mem_cons, hc, false_or]
            split
            · rw [hnv _ c hc, upd_ne _ _ hc]
            · rw [upd_ne _ _ hc]
        · by_cases hz : k = 'Z'
          · subst hz; simp [hk, hv]
          · have hz' : ¬ 'Z' = k := fun h => hz h.symm
            simp only [List.mem_cons, hz', false_or, hz, if_false]
            split
            · rw [hnv _ 'Z' hz']; rfl
            · rfl
      · dsimp only
        funext c
        by_cases hc : c = k
        · subst hc; simp [hk, hv]
        · simp only [List.mem_cons, hc, false_or]
          split
          · rw [hnv _ c hc, upd_ne _ _ hc]
          · rw [upd_ne _ _ hc]

theorem posKeys_nodup : posKeys.Nodup := by decide
theorem orderedParams_nodup : orderedParams.Nodup := by decide

/-- State after the parameter loop. -/
def Gen.afterLoop (g : Gen K) (base : Str) (kw : Kw K) : Gen K :=
  { g with
    last := fun c => if c ∈ posKeys then (g.newVal base kw c).or (g.last c) else g.last c
    isToolUp := g.upAfter (g.newVal base kw 'Z') }

/-- `pos_params` after the parameter loop. -/
def Gen.posParams (g : Gen K) (base : Str) (kw : Kw K) : Char → Option K :=
  fun c => if c ∈ posKeys then (g.newVal base kw c).map (g.cfg.outVal c) else none

theorem paramLoop_eq (g : Gen K) (base kw) : g.paramLoop base kw = (g.afterLoop base kw, g.posParams base kw) := by
  unfold Gen.paramLoop
  rw [paramFold _ _ _ posKeys_nodup]
  have : 'Z' ∈ posKeys := by decide
  simp only [Gen.afterLoop, this, if_true, Option.or_none]
  rfl

@[simp] theorem afterLoop_cfg (g : Gen K) (base kw) : (g.afterLoop base kw).cfg = g.cfg := rfl
@[simp] theorem afterLoop_out (g : Gen K) (base kw) : (g.afterLoop base kw).out = g.out := rfl
@[simp] theorem afterLoop_reset (g : Gen K) (base kw) : (g.afterLoop base kw).offsetReset = g.offsetReset := rfl
@[simp] theorem afterLoop_lineNumber (g : Gen K) (base kw) : (g.afterLoop base kw).lineNumber = g.lineNumber := rfl

/-- `pos_params` keys in closed form. -/
theorem presentKeys_eq (g : Gen K) (base kw) :
    presentKeys (g.posParams base kw) = posKeys.filter fun k => (g.newVal base kw k).isSome := by
  unfold presentKeys Gen.posParams
  apply List.filter_congr
  intro k hk
  simp [hk]

/-! ## Machine words -/

theorem foldl_word (f : Char → Option K) (d : Nat) (l : List Char) (hn : l.Nodup) (m : Machine K) :
    (l.filterMap fun k => (f k).map fun v => (⟨[k], .num d v⟩ : Word K)).foldl Machine.word m =
      { m with
        pos := fun c => if c ∈ l ∧ c ∈ axisLetters then (f c).or (m.pos c) else m.pos c
        feed := if 'F' ∈ l then (f 'F').or m.feed else m.feed } := by
  induction l generalizing m with
  | nil => simp
  | cons k l ih =>
    have hk : k ∉ l := (List.nodup_cons.mp hn).1
    have hl : l.Nodup := (List.nodup_cons.mp hn).2
    cases hf : f k with
    | none =>
      rw [List.filterMap_cons_none (by simp [hf]), ih hl]
      congr 1
      · funext c
        by_cases hc : c = k
        · subst hc; simp [hk, hf]
        · simp [hc]
      · by_cases hz : 'F' = k
        · subst hz; simp [hk, hf]
        · simp [hz]
    | some v =>
      rw [List.filterMap_cons_some (by simp [hf]; rfl), List.foldl_cons, ih hl]
      by_cases ha : k ∈ axisLetters
      · have hF : ¬ 'F' = k := by rintro rfl; revert ha; decide
        simp only [Machine.word, Word.read, ha, if_true]
        congr 1
        · funext c
          by_cases hc : c = k
          · subst hc; simp [hk, hf, ha]
          · simp [hc]
        · simp [hF]
      · by_cases hF : k = 'F'
        · subst hF
          simp only [Machine.word, Word.read, ha, if_false, if_true]
          congr 1
          · funext c
            by_cases hc : c = 'F'
            · subst hc; simp [ha]
            · simp [hc]
          · simp [hk, hf]
        · have hF' : ¬ 'F' = k := fun h => hF h.symm
          simp only [Machine.word, Word.read, ha, hF, if_false]
          congr 1
          · funext c
            by_cases hc : c = k
            · subst hc; simp [ha]
            · simp [hc]
          · simp [hF']

/-! ## `gcode_command` in closed form -/

/-- Does the parameter part of the command produce a line? -/
def Gen.emitsParams (g : Gen K) (base : Str) (kw : Kw K) : Bool :=
  let keys := posKeys.filter fun k => (g.newVal base kw k).isSome
  decide (keys.length > 0) && (decide (keys.length > 1) || decide ('F' ∉ keys))

/-- No parameter changed. -/
def Gen.noParams (g : Gen K) (base : Str) (kw : Kw K) : Bool :=
  (posKeys.filter fun k => (g.newVal base kw k).isSome).isEmpty

/-- The opaque parameter text as a word list. -/
def paramWords (kw : Kw K) : List (Word K) :=
  match kw.params with
  | some p => if p.isEmpty then [] else [⟨p, .none⟩]
  | none => []

theorem gcodeCore_eq (g : Gen K) (c : Str) (kw : Kw K) :
    g.gcodeCore c kw =
      if g.emitsParams (baseCmd c) kw then
        (g.afterLoop (baseCmd c) kw).writeLine ⟨c, g.cfg.wordsOf (g.posParams (baseCmd c) kw)⟩ kw.comment
      else if g.noParams (baseCmd c) kw && decide (baseCmd c ∉ motionGroup) then
        (g.afterLoop (baseCmd c) kw).writeLine ⟨c, paramWords kw⟩ kw.comment
      else g.afterLoop (baseCmd c) kw := by
  unfold Gen.gcodeCore Gen.emitsParams Gen.noParams
  dsimp only
  rw [paramLoop_eq, ← presentKeys_eq]
  dsimp only
  generalize presentKeys (g.posParams (baseCmd c) kw) = keys
  rcases keys with _ | ⟨a, l⟩
  · simp [paramWords]
    rfl
  · simp

/-- Nothing changed: the loop leaves the state alone. -/
theorem afterLoop_of_noParams (g : Gen K) (base kw) (h : g.noParams base kw = true) : g.afterLoop base kw = g := by
  have h' : ∀ k ∈ posKeys, g.newVal base kw k = none := by
    intro k hk
    simp only [Gen.noParams, List.isEmpty_iff, List.filter_eq_nil_iff] at h
    simpa using h k hk
  have hz := h' 'Z' (by decide)
  unfold Gen.afterLoop
  rw [hz]
  have : (fun c => if c ∈ posKeys then (g.newVal base kw c).or (g.last c) else g.last c) = g.last := by
    funext c
    split
    · rename_i hc; rw [h' c hc]; rfl
    · rfl
  rw [this]
  rfl

/-- If no line is produced although something changed, only `F` changed. -/
theorem newVal_of_suppressed (g : Gen K) (base kw) (h : g.emitsParams base kw = false) :
    ∀ k ∈ posKeys, k ≠ 'F' → g.newVal base kw k = none := by
  intro k hk hkF
  by_contra hne
  have hks : (g.newVal base kw k).isSome := by simpa [Option.isSome_iff_ne_none] using hne
  have hmem : k ∈ posKeys.filter fun k => (g.newVal base kw k).isSome := by simp [hk, hks]
  revert h hmem
  simp only [Gen.emitsParams]
  generalize (posKeys.filter fun k => (g.newVal base kw k).isSome) = keys
  intro h hmem
  rcases keys with _ | ⟨a, _ | ⟨b, l⟩⟩
  · simp at hmem
  · simp at hmem h
    exact hkF (hmem.trans h.symm)
  · simp at h

theorem wordsOf_plain (c : Cfg K) (h : c.axisMap = fun _ => none) (pp : Char → Option K) :
    c.wordsOf pp = orderedParams.filterMap fun k => (pp k).map fun v => (⟨[k], .num c.digits v⟩ : Word K) := by
  unfold Cfg.wordsOf
  simp [h]

/-- Executing a motion block built from `pos_params`. -/
theorem exec_motion (m : Machine K) (cmd : Str) (h : isMotion cmd = true ∨ cmd = "G92".toList) (d : Nat)
    (f : Char → Option K) :
    m.exec ⟨cmd, orderedParams.filterMap fun k => (f k).map fun v => (⟨[k], .num d v⟩ : Word K)⟩ =
      { m with
        pos := fun c => if c ∈ orderedParams ∧ c ∈ axisLetters then (f c).or (m.pos c) else m.pos c
        feed := (f 'F').or m.feed } := by
  have : (isMotion cmd || decide (cmd = "G92".toList) || cmd.isEmpty) = true := by
    rcases h with h | h <;> simp [h]
  unfold Machine.exec
  simp only [this, if_true]
  rw [foldl_word _ _ _ orderedParams_nodup]
  have : 'F' ∈ orderedParams := by decide
  simp only [this, if_true]

/-- A stationary block leaves position and feed alone. -/
theorem exec_stationary (m : Machine K) (b : Block K) (h : isStationary b.cmd = true) :
    (m.exec b).pos = m.pos ∧ (m.exec b).feed = m.feed := by
  have h1 : (isMotion b.cmd || decide (b.cmd = "G92".toList) || b.cmd.isEmpty) = false := by
    simp only [isStationary, decide_eq_true_eq] at h
    simp only [List.mem_cons, List.not_mem_nil, or_false] at h
    rcases h with h | h | h | h | h | h | h | h | h | h | h | h | h | h | h | h | h | h | h | h | h <;>
      (rw [h]; decide)
  unfold Machine.exec
  simp only [h1, h, if_true, Bool.false_eq_true, if_false]
  constructor
  · split
    · rfl
    · split <;> rfl
  · split
    · rfl
    · split <;> rfl

end Verif.GCode
