import Verif.Cam.Props8

/-!
# C39: hints of filleted paths
-/

set_option linter.unusedSectionVars false

namespace Verif.Cam
open Verif PyFloat PyTrig Geom

section
variable {K : Type} [PyTrig K]

/-! ## Specification -/

/-- Specification: the rendering hints are the same (the tool angles only if they are not adjusted). -/
def SameHints (adjust : Bool) (s t : Seg K) : Prop :=
  t.hints.z = s.hints.z ∧ t.hints.ignoreA = s.hints.ignoreA ∧ (adjust = false → t.hints.startA = s.hints.startA ∧ t.hints.endA = s.hints.endA)

/-- Specification: a fillet: an arc without a height of its own, turned as the path is. -/
def IsFillet (adjust : Bool) (f : Seg K) : Prop := (∃ a, f.shape = .arc a) ∧ SameHints adjust ⟨f.shape, {}⟩ f

/-- Specification: `q` has, for each segment of `p` in order, one segment with the same hints, and fillets before, between and after them. -/
inductive HintsKept (adjust : Bool) : Path K → Path K → Prop
  | nil : HintsKept adjust [] []
  | keep (s t : Seg K) (p q : Path K) : SameHints adjust s t → HintsKept adjust p q → HintsKept adjust (s :: p) (t :: q)
  | fillet (f : Seg K) (p q : Path K) : IsFillet adjust f → HintsKept adjust p q → HintsKept adjust p (f :: q)

/-! ## Proof -/

theorem SameHints.refl (adjust : Bool) (s : Seg K) : SameHints adjust s s := ⟨rfl, rfl, fun _ => ⟨rfl, rfl⟩⟩

theorem SameHints.trans {adjust : Bool} {s t u : Seg K} (h : SameHints adjust s t) (h' : SameHints adjust t u) : SameHints adjust s u := by
  refine ⟨h'.1.trans h.1, h'.2.1.trans h.2.1, fun ha => ⟨?_, ?_⟩⟩
  · exact (h'.2.2 ha).1.trans (h.2.2 ha).1
  · exact (h'.2.2 ha).2.trans (h.2.2 ha).2

/-- The same hints, and an arc stays an arc. -/
def Reshaped (adjust : Bool) (s t : Seg K) : Prop := SameHints adjust s t ∧ ((∃ a, s.shape = .arc a) → ∃ a, t.shape = .arc a)

theorem Reshaped.fillet {adjust : Bool} {s t : Seg K} (h : Reshaped adjust s t) (hs : IsFillet adjust s) : IsFillet adjust t := by
  refine ⟨h.2 hs.1, ?_⟩
  have := hs.2.trans h.1
  exact ⟨this.1, this.2.1, this.2.2⟩

theorem HintsKept.refl (adjust : Bool) (p : Path K) : HintsKept adjust p p := by
  induction p with
  | nil => exact .nil
  | cons s p ih => exact .keep s s p p (.refl adjust s) ih

theorem HintsKept.head {adjust : Bool} {p q : Path K} {t t' : Seg K} (h : HintsKept adjust p (t :: q)) (ht : Reshaped adjust t t') : HintsKept adjust p (t' :: q) := by
  cases h with
  | keep s _ p _ h1 h2 => exact .keep s t' p q (h1.trans ht.1) h2
  | fillet _ _ _ h1 h2 => exact .fillet t' p q (ht.fillet h1) h2

theorem HintsKept.last {adjust : Bool} {p q : Path K} (h : HintsKept adjust p q) : ∀ {t t' : Seg K}, q.getLast? = some t → Reshaped adjust t t' → HintsKept adjust p (setLast q t') := by
  induction h with
  | nil => intro t t' hl; cases hl
  | keep s u p q h1 h2 ih =>
    intro t t' hl ht
    cases q with
    | nil =>
      rw [List.getLast?_singleton, Option.some.injEq] at hl
      subst hl
      cases h2
      exact .keep s t' [] [] (h1.trans ht.1) .nil
    | cons v q =>
      rw [List.getLast?_cons_cons] at hl
      have : setLast (u :: v :: q) t' = u :: setLast (v :: q) t' := rfl
      rw [this]
      exact .keep s u _ _ h1 (ih hl ht)
  | fillet u p q h1 h2 ih =>
    intro t t' hl ht
    cases q with
    | nil =>
      rw [List.getLast?_singleton, Option.some.injEq] at hl
      subst hl
      exact .fillet t' _ _ (ht.fillet h1) h2
    | cons v q =>
      rw [List.getLast?_cons_cons] at hl
      have : setLast (u :: v :: q) t' = u :: setLast (v :: q) t' := rfl
      rw [this]
      exact .fillet u _ _ h1 (ih hl ht)

theorem HintsKept.snoc {adjust : Bool} {p q : Path K} (h : HintsKept adjust p q) {f : Seg K} (hf : IsFillet adjust f) : HintsKept adjust p (q ++ [f]) := by
  induction h with
  | nil => exact .fillet f [] [] hf .nil
  | keep s t p q h1 _ ih => exact .keep s t _ _ h1 ih
  | fillet g p q h1 _ ih => exact .fillet g _ _ h1 ih

theorem connectFirst_arc (eps : K) (s : Shape K) (f : Arc K) : (∃ a, s = .arc a) → ∃ a, connectFirst eps s f = .arc a := by
  rintro ⟨a, rfl⟩; exact ⟨_, rfl⟩

theorem connectSecond_arc (eps : K) (s : Shape K) (f : Arc K) : (∃ a, s = .arc a) → ∃ a, connectSecond eps f s = .arc a := by
  rintro ⟨a, rfl⟩; exact ⟨_, rfl⟩

theorem copyAttrs_same (adjust : Bool) (s : Seg K) (sh : Shape K) : SameHints adjust s (s.copyAttrs ⟨sh, {}⟩) := by
  obtain ⟨shape, z, sa, ea, ia, ig, g⟩ := s
  refine ⟨?_, ?_, fun _ => ⟨?_, ?_⟩⟩
  · cases z <;> rfl
  · cases ia <;> rfl
  · cases sa <;> rfl
  · cases ea <;> rfl

/-- The adjusted first segment. -/
def adjFirst (s : Seg K) : Option (Option K × K × K × Option K) → Seg K
  | some (some e, _, _, _) => { s with hints := { s.hints with endA := some e } }
  | _ => s

/-- The adjusted second segment. -/
def adjSecond (s : Seg K) : Option (Option K × K × K × Option K) → Seg K
  | some (_, _, _, some e) => { s with hints := { s.hints with startA := some e } }
  | _ => s

theorem adjFirst_same {adjust : Bool} (s : Seg K) (adj : Option (Option K × K × K × Option K)) (h : adjust = false → adj = none) : SameHints adjust s (adjFirst s adj) := by
  refine ⟨?_, ?_, fun ha => ?_⟩
  · unfold adjFirst; split <;> rfl
  · unfold adjFirst; split <;> rfl
  · rw [h ha]; exact ⟨rfl, rfl⟩

theorem adjSecond_same {adjust : Bool} (s : Seg K) (adj : Option (Option K × K × K × Option K)) (h : adjust = false → adj = none) : SameHints adjust s (adjSecond s adj) := by
  refine ⟨?_, ?_, fun ha => ?_⟩
  · unfold adjSecond; split <;> rfl
  · unfold adjSecond; split <;> rfl
  · rw [h ha]; exact ⟨rfl, rfl⟩

theorem adjusted_hints {eps r : K} {adjust mark : Bool} {s1 s2 n1 f n2 : Seg K} (h : createAdjustedFillet eps s1 s2 r adjust mark = .ok (some (n1, f, n2))) :
    Reshaped adjust s1 n1 ∧ IsFillet adjust f ∧ Reshaped adjust s2 n2 := by
  unfold createAdjustedFillet at h
  split at h
  · cases h
  · obtain ⟨f?, hf, h⟩ := bind_ok h
    cases f? with
    | none => cases h
    | some fa =>
      dsimp only at h
      have hall : ∃ adj : Option (Option K × K × K × Option K), (adjust = false → adj = none) ∧ (Except.ok (some
          ((adjFirst s1 adj).copyAttrs ⟨connectFirst eps s1.shape fa, {}⟩, (⟨.arc fa, { startA := adj.map (·.2.1), endA := adj.map (·.2.2.1), ignoreG1 := mark }⟩ : Seg K),
          (adjSecond s2 adj).copyAttrs ⟨connectSecond eps fa s2.shape, {}⟩)) : Except PyErr (Option (Seg K × Seg K × Seg K))) = .ok (some (n1, f, n2)) := by
        split at h
        · rename_i ha
          obtain ⟨adj, hadj, h⟩ := bind_ok h
          exact ⟨adj, fun h' => (by rw [ha] at h'; cases h'), h⟩
        · obtain ⟨adj, hadj, h⟩ := bind_ok h
          cases hadj
          exact ⟨none, fun _ => rfl, h⟩
      obtain ⟨adj, hnone, h⟩ := hall
      cases h
      refine ⟨⟨(adjFirst_same s1 adj hnone).trans (copyAttrs_same _ _ _), connectFirst_arc eps s1.shape fa⟩, ⟨⟨fa, rfl⟩, rfl, rfl, fun ha => ?_⟩,
        ⟨(adjSecond_same s2 adj hnone).trans (copyAttrs_same _ _ _), connectSecond_arc eps s2.shape fa⟩⟩
      rw [hnone ha]; exact ⟨rfl, rfl⟩

theorem filletLoop_hints {eps r : K} {adjust mark : Bool} (rest : Path K) : ∀ (s s0 : Seg K) (new : Path K), SameHints adjust s0 s →
    filletLoop eps r adjust mark s rest = .ok new → HintsKept adjust (s0 :: rest) new := by
  induction rest with
  | nil => intro s s0 new hs h; unfold filletLoop at h; cases h; exact .keep _ _ _ _ hs .nil
  | cons s2 rest ih =>
    intro s s0 new hs h
    unfold filletLoop at h
    obtain ⟨f, hf, h⟩ := bind_ok h
    cases f with
    | none =>
      obtain ⟨tl, htl, h⟩ := bind_ok h
      cases h
      exact .keep _ _ _ _ hs (ih s2 s2 tl (.refl _ _) htl)
    | some t =>
      obtain ⟨n1, fs, n2⟩ := t
      obtain ⟨h1, h2, h3⟩ := adjusted_hints hf
      dsimp only at h
      obtain ⟨tl, htl, h⟩ := bind_ok h
      cases h
      exact .keep _ _ _ _ (hs.trans h1.1) (.fillet _ _ _ h2 (ih n2 s2 tl h3.1 htl))

theorem filletClose_hints {eps r : K} {adjust mark : Bool} {p new res : Path K} (hk : HintsKept adjust p new) (h : filletCloseStep eps r adjust mark new = .ok res) : HintsKept adjust p res := by
  unfold filletCloseStep at h
  split at h
  · rename_i first tl last hl
    obtain ⟨f, hf, h'⟩ := bind_ok h
    clear h
    rename' h' => h
    cases f with
    | none => cases h; exact hk
    | some t =>
      obtain ⟨n1, fs, n2⟩ := t
      obtain ⟨h1, h2, h3⟩ := adjusted_hints hf
      dsimp only at h
      have hlast : HintsKept adjust p (setLast (first :: tl) n1 ++ [fs]) := (hk.last hl h1).snoc h2
      cases tl with
      | nil =>
        rw [List.getLast?_singleton, Option.some.injEq] at hl
        subst hl
        have : HintsKept adjust p ([n2] ++ [fs]) := (hk.head h3).snoc h2
        cases h
        exact this
      | cons u tl =>
        have heq : setLast (first :: u :: tl) n1 ++ [fs] = first :: (setLast (u :: tl) n1 ++ [fs]) := rfl
        rw [heq] at hlast h
        cases h
        exact hlast.head h3
  · cases h; exact hk

/-- **C39**, hints: filleting a path, with or without closing it, keeps the rendering hints of its segments: each segment, shortened or not, has the height and the 'ignore the A axis' mark that it had
before, and its tool angles unless they are to be adjusted; the fillets between them have none. -/
theorem C39_hints {eps r : K} {close adjust mark : Bool} {path res : Path K} (h : filletPath eps path r close adjust mark = .ok res) : HintsKept adjust path res := by
  unfold filletPath at h
  split at h
  · cases h; exact .refl adjust _
  · cases path with
    | nil => cases h; exact .nil
    | cons s rest =>
      dsimp only at h
      obtain ⟨new, hn, h⟩ := bind_ok h
      have hk := filletLoop_hints rest s s new (.refl adjust s) hn
      have hall : ∃ new', HintsKept adjust (s :: rest) new' ∧ (pure (if (s :: rest).length < new'.length then new' else s :: rest) : Except PyErr (Path K)) = .ok res := by
        split at h
        · obtain ⟨new', hn', h⟩ := bind_ok h
          exact ⟨new', filletClose_hints hk hn', h⟩
        · exact ⟨new, hk, h⟩
      obtain ⟨new', hk', h⟩ := hall
      cases h
      split
      · exact hk'
      · exact .refl adjust _

end

/-- Non-vacuity: a corner whose sides have heights of their own. -/
example : ((filletPath (1/1000 : ℚ) [⟨.line ⟨⟨0, 0⟩, ⟨4, 0⟩⟩, { z := some 1 }⟩, ⟨.line ⟨⟨4, 0⟩, ⟨4, 4⟩⟩, { z := some 2, ignoreA := true }⟩] 1 false false false).toOption.map
    fun res => res.map fun s => (s.hints.z, s.hints.ignoreA)) = some [(some 1, false), (none, false), (some 2, true)] := by
  decide +kernel

end Verif.Cam
