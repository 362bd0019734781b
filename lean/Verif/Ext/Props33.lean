import Verif.Ext.Render
import Verif.Ext.Props3
import Verif.Cam.Props25

/-!
# C194: how grid lines are drawn
-/

set_option linter.unusedSectionVars false

namespace Verif.Ext
open Verif PyFloat PyTrig Geom Cam

section
variable {K : Type} [PyTrig K]

/-- Specification: the second shape starts where the first one ends, or where the lines were taken to meet (within the tolerance). -/
def MeetsAt (eps : K) (s t : Shape K) : Prop := s.p2 = t.p1 ∨ s.p2.eq eps t.p1 = true

/-- Specification: a way from `a` to `z` without gaps. -/
def WayFromTo (eps : K) (a z : P K) (out : List (Shape K)) : Prop :=
  out.head?.map Shape.p1 = some a ∧ out.getLast?.map Shape.p2 = some z ∧ out.IsChain (MeetsAt eps)

/-- Specification: the number of lines of a list of shapes. -/
def linesIn (out : List (Shape K)) : Nat := out.countP fun s => match s with | .line _ => true | _ => false

theorem gapless_cons {eps : K} {a b z : P K} {s : Shape K} {out : List (Shape K)} (ha : s.p1 = a) (hm : s.p2 = b ∨ s.p2.eq eps b = true) (h : WayFromTo eps b z out) :
    WayFromTo eps a z (s :: out) := by
  obtain ⟨h1, h2, h3⟩ := h
  cases out with
  | nil => cases h1
  | cons t out =>
    refine ⟨by rw [List.head?_cons, Option.map_some, ha], by rw [List.getLast?_cons_cons]; exact h2, List.isChain_cons_cons.2 ⟨?_, h3⟩⟩
    rw [List.head?_cons, Option.map_some, Option.some.injEq] at h1
    unfold MeetsAt
    rw [h1]; exact hm

theorem grid_insert (eps : K) (l m : Line K) (r : K) : insertFillet eps (.line l) (.line m) r = .ok none ∨
    ∃ f, insertFillet eps (.line l) (.line m) r = .ok (some (.line ⟨l.p1, f.p1⟩, f, .line ⟨f.p2, m.p2⟩)) := by
  unfold insertFillet
  have h : createFilletArc eps (.line l) (.line m) r = .ok (filletLineLine eps l m r) := rfl
  rw [h]
  cases filletLineLine eps l m r with
  | none => exact .inl rfl
  | some f => exact .inr ⟨f, rfl⟩

theorem grid_loop_lines (eps r : K) (ls : List (Line K)) : ∀ l : Line K, (l :: ls).IsChain (fun a b => a.p2.eq eps b.p1 = true) →
    ∃ out z, shapeFilletLoop eps r (.line l) (asShapes ls) = .ok out ∧ (l :: ls).getLast?.map Line.p2 = some z ∧ WayFromTo eps l.p1 z out ∧ linesIn out = ls.length + 1 := by
  induction ls with
  | nil => exact fun l _ => ⟨[.line l], l.p2, rfl, rfl, ⟨rfl, rfl, .singleton _⟩, rfl⟩
  | cons m ls ih =>
    intro l hc
    rw [List.isChain_cons_cons] at hc
    obtain ⟨hj, hc⟩ := hc
    rcases grid_insert eps l m r with hi | ⟨f, hi⟩
    · obtain ⟨out, z, h1, h2, h3, h4⟩ := ih m hc
      refine ⟨.line l :: out, z, ?_, by rw [List.getLast?_cons_cons]; exact h2, gapless_cons rfl (.inr hj) h3, ?_⟩
      · show shapeFilletLoop eps r (.line l) (.line m :: asShapes ls) = _
        rw [shapeFilletLoop, hi]
        simp only [bind, Except.bind]
        rw [h1]; rfl
      · unfold linesIn at h4 ⊢
        rw [List.countP_cons_of_pos rfl, h4]; rfl
    · have hc' : ((⟨f.p2, m.p2⟩ : Line K) :: ls).IsChain (fun a b => a.p2.eq eps b.p1 = true) := by
        cases ls with
        | nil => exact .singleton _
        | cons n ls => rw [List.isChain_cons_cons] at hc ⊢; exact hc
      obtain ⟨out, z, h1, h2, h3, h4⟩ := ih ⟨f.p2, m.p2⟩ hc'
      have h2' : (m :: ls).getLast?.map Line.p2 = some z := by
        cases ls with
        | nil => exact h2
        | cons n ls => rw [List.getLast?_cons_cons] at h2 ⊢; exact h2
      refine ⟨.line ⟨l.p1, f.p1⟩ :: .arc f :: out, z, ?_, by rw [List.getLast?_cons_cons]; exact h2', gapless_cons rfl (.inl rfl) (gapless_cons rfl (.inl rfl) h3), ?_⟩
      · show shapeFilletLoop eps r (.line l) (.line m :: asShapes ls) = _
        rw [shapeFilletLoop, hi]
        simp only [bind, Except.bind]
        rw [h1]; rfl
      · unfold linesIn at h4 ⊢
        rw [List.countP_cons_of_pos rfl, List.countP_cons_of_neg (by simp), h4]; rfl

theorem gapless_way (eps : K) (ls : List (Line K)) : ∀ l : Line K, (l :: ls).IsChain (fun a b => a.p2.eq eps b.p1 = true) →
    ∃ z, (l :: ls).getLast?.map Line.p2 = some z ∧ WayFromTo eps l.p1 z (asShapes (l :: ls)) ∧ linesIn (asShapes (l :: ls)) = ls.length + 1 := by
  induction ls with
  | nil => exact fun l _ => ⟨l.p2, rfl, ⟨rfl, rfl, .singleton _⟩, rfl⟩
  | cons m ls ih =>
    intro l hc
    rw [List.isChain_cons_cons] at hc
    obtain ⟨z, h2, h3, h4⟩ := ih m hc.2
    refine ⟨z, by rw [List.getLast?_cons_cons]; exact h2, gapless_cons rfl (.inr hc.1) h3, ?_⟩
    unfold linesIn at h4 ⊢
    show (Shape.line l :: asShapes (m :: ls)).countP _ = _
    rw [List.countP_cons_of_pos rfl, h4]; rfl

/-- Specification: what is drawn for a path: a way without gaps from its start to its end, with a line for each of its lines. -/
def TracesPath (eps : K) (path : List (Line K)) (shapes : List (Shape K)) : Prop :=
  ∃ a z, path.head?.map Line.p1 = some a ∧ path.getLast?.map Line.p2 = some z ∧ WayFromTo eps a z shapes ∧ linesIn shapes = path.length

theorem fillet_traces (eps r : K) (l : Line K) (ls : List (Line K)) (hc : (l :: ls).IsChain (fun a b => a.p2.eq eps b.p1 = true)) :
    ∃ out, shapeFilletPath eps (asShapes (l :: ls)) r false = .ok out ∧ TracesPath eps (l :: ls) out := by
  obtain ⟨z, h1, h2, h3⟩ := gapless_way eps ls l hc
  have hself : TracesPath eps (l :: ls) (asShapes (l :: ls)) := ⟨l.p1, z, rfl, h1, h2, h3⟩
  unfold shapeFilletPath
  split
  · exact ⟨_, rfl, hself⟩
  · obtain ⟨out, z', k1, k2, k3, k4⟩ := grid_loop_lines eps r ls l hc
    have e : asShapes (l :: ls) = .line l :: asShapes ls := rfl
    rw [e] at hself ⊢
    dsimp only
    rw [k1]
    simp only [bind, Except.bind, Bool.false_and, Bool.false_eq_true, if_false, pure, Except.pure]
    split
    · exact ⟨_, rfl, l.p1, z', rfl, k2, k3, k4⟩
    · exact ⟨_, rfl, hself⟩

theorem render_traces (eps : K) (a : DrawArgs K) (l : Line K) (ls : List (Line K)) (hc : (l :: ls).IsChain (fun a b => a.p2.eq eps b.p1 = true)) :
    ∃ out, renderPath eps a (l :: ls) = .ok (some out) ∧ TracesPath eps (l :: ls) out := by
  obtain ⟨z, h1, h2, h3⟩ := gapless_way eps ls l hc
  have hself : TracesPath eps (l :: ls) (asShapes (l :: ls)) := ⟨l.p1, z, rfl, h1, h2, h3⟩
  unfold renderPath
  split
  · exact ⟨_, rfl, hself⟩
  · rw [if_neg (by simp)]
    split
    · obtain ⟨out, k1, k2⟩ := fillet_traces eps a.radius l ls hc
      exact ⟨out, by rw [k1]; rfl, k2⟩
    · exact ⟨_, rfl, hself⟩

/-- Specification: a path that is not empty and has no gaps (as `connected_paths` makes them, C128). -/
def GaplessPath (eps : K) (p : List (Line K)) : Prop := p ≠ [] ∧ p.IsChain (fun a b => a.p2.eq eps b.p1 = true)

theorem grid_lines_traces (eps : K) (a : DrawArgs K) (layer : GridLayer) (style : GridStyle) (ps : List (List (Line K))) (h : ∀ p ∈ ps, GaplessPath eps p) :
    ∃ out, renderLines eps a layer style ps = .ok out ∧ List.Forall₂ (fun p d => d.layer = layer ∧ d.style = style ∧ renderPath eps a p = .ok (some d.shapes) ∧ TracesPath eps p d.shapes) ps out := by
  induction ps with
  | nil => exact ⟨[], rfl, .nil⟩
  | cons p ps ih =>
    obtain ⟨out, h1, h2⟩ := ih fun q hq => h q (List.mem_cons_of_mem _ hq)
    obtain ⟨hne, hc⟩ := h p List.mem_cons_self
    cases p with
    | nil => exact absurd rfl hne
    | cons l ls =>
      obtain ⟨d, k1, k2⟩ := render_traces eps a l ls hc
      refine ⟨⟨layer, style, d⟩ :: out, ?_, .cons ⟨rfl, rfl, k1, k2⟩ h2⟩
      rw [renderLines, k1]
      simp only [bind, Except.bind]
      rw [h1]; rfl

/-- Specification: the paths drawn, each with its style, in order: the horizontal ones, then the vertical ones, or by turns. -/
def paintOrder (a : DrawArgs K) (hs vs : List (List (Line K))) : List (GridStyle × List (Line K)) :=
  if a.both = true ∧ hs ≠ [] ∧ vs ≠ [] then alternated (hs.map fun p => (GridStyle.hLine, p)) (vs.map fun p => (.vLine, p))
  else hs.map (fun p => (GridStyle.hLine, p)) ++ vs.map fun p => (.vLine, p)

theorem turns_iff (a : DrawArgs K) (hs vs : List (List (Line K))) : byTurns a hs vs = true ↔ a.both = true ∧ hs ≠ [] ∧ vs ≠ [] := by
  unfold byTurns
  cases hs <;> cases vs <;> simp

theorem alternated_map {α β : Type} (f : α → β) (hs vs : List α) : (alternated hs vs).map f = alternated (hs.map f) (vs.map f) := by
  induction hs generalizing vs with
  | nil => rfl
  | cons h hs ih =>
    cases vs with
    | nil => rfl
    | cons v vs => simp only [alternated, List.map_cons, ih]

/-- **C194**: the drawing never fails. Each path is drawn once, by one element with the style of its lines, in the order asked for; what is drawn goes without gaps from the start of the path to its end and has a
line for each line of the path. -/
theorem C194_drawn (eps : K) (a : DrawArgs K) (hs vs : List (List (Line K))) (hh : ∀ p ∈ hs, GaplessPath eps p) (hv : ∀ p ∈ vs, GaplessPath eps p) :
    ∃ out, drawGrid eps a hs vs = .ok out ∧ List.Forall₂ (fun p d => d.style = p.1 ∧ TracesPath eps p.2 d.shapes) (paintOrder a hs vs) out := by
  unfold drawGrid paintOrder
  by_cases hb : byTurns a hs vs = true
  · rw [if_pos hb, if_pos ((turns_iff a hs vs).1 hb)]
    refine ⟨_, rfl, ?_⟩
    obtain ⟨f, hf⟩ : ∃ f : GridStyle × List (Line K) → DrawnPath K, f = fun p => ⟨.all, p.1, asShapes p.2⟩ := ⟨_, rfl⟩
    have e : alternated (hs.map fun p => (⟨.all, .hLine, asShapes p⟩ : DrawnPath K)) (vs.map fun p => ⟨.all, .vLine, asShapes p⟩) =
        (alternated (hs.map fun p => (GridStyle.hLine, p)) (vs.map fun p => (.vLine, p))).map f := by
      rw [alternated_map, List.map_map, List.map_map, hf]; rfl
    rw [e]
    have hgood : ∀ q ∈ alternated (hs.map fun p => (GridStyle.hLine, p)) (vs.map fun p => (.vLine, p)), GaplessPath eps q.2 := by
      intro q hq
      have := (C128_alternated (hs.map fun p => (GridStyle.hLine, p)) (vs.map fun p => (.vLine, p))).2.mem_iff.1 hq
      rcases List.mem_append.1 this with h | h <;> obtain ⟨p, hp, rfl⟩ := List.mem_map.1 h
      · exact hh p hp
      · exact hv p hp
    generalize alternated (hs.map fun p => (GridStyle.hLine, p)) (vs.map fun p => (.vLine, p)) = qs at hgood ⊢
    clear e
    induction qs with
    | nil => exact .nil
    | cons q qs ih =>
      obtain ⟨hne, hc⟩ := hgood q List.mem_cons_self
      obtain ⟨st, p⟩ := q
      cases p with
      | nil => exact absurd rfl hne
      | cons l ls =>
        rw [List.map_cons, List.filter_cons_of_pos (by rw [hf]; rfl)]
        obtain ⟨z, h1, h2, h3⟩ := gapless_way eps ls l hc
        exact .cons (by rw [hf]; exact ⟨rfl, l.p1, z, rfl, h1, h2, h3⟩) (ih fun q hq => hgood q (List.mem_cons_of_mem _ hq))
  · rw [if_neg hb, if_neg (fun h => hb ((turns_iff a hs vs).2 h))]
    obtain ⟨o1, h1, h2⟩ := grid_lines_traces eps a (if a.gridLayers then .horizontal else .all) .hLine hs hh
    obtain ⟨o2, k1, k2⟩ := grid_lines_traces eps a (if a.gridLayers then .vertical else .all) .vLine vs hv
    refine ⟨o1 ++ o2, by rw [h1, k1]; rfl, List.rel_append ?_ ?_⟩
    · rw [List.forall₂_map_left_iff]
      exact h2.imp fun p d h => ⟨h.2.1, h.2.2.2⟩
    · rw [List.forall₂_map_left_iff]
      exact k2.imp fun p d h => ⟨h.2.1, h.2.2.2⟩

/-- **C194**, layers: if lines are drawn by turns, or no layers for the two sets are asked for, everything is on one layer; otherwise the horizontal lines are on one layer and the vertical ones on another. The
layers made are those that are drawn on (or an empty one, if there is nothing to be drawn). -/
theorem C194_layers (eps : K) (a : DrawArgs K) (hs vs : List (List (Line K))) (hh : ∀ p ∈ hs, GaplessPath eps p) (hv : ∀ p ∈ vs, GaplessPath eps p) {out : List (DrawnPath K)}
    (h : drawGrid eps a hs vs = .ok out) :
    (∀ d ∈ out, d.layer = if a.gridLayers = true ∧ ¬ (a.both = true ∧ hs ≠ [] ∧ vs ≠ []) then (if d.style = .hLine then .horizontal else .vertical) else .all) ∧
      (out ≠ [] → ∀ x, x ∈ gridLayers a hs vs ↔ ∃ d ∈ out, d.layer = x) := by
  have mem1 : ∀ {P : List (Line K) → DrawnPath K → Prop} {ps : List (List (Line K))} {os : List (DrawnPath K)}, List.Forall₂ P ps os → ∀ d ∈ os, ∃ p ∈ ps, P p d := by
    intro P ps os hf
    induction hf with
    | nil => intro d hd; cases hd
    | cons hx _ ih =>
      intro d hd
      rcases List.mem_cons.1 hd with rfl | hd
      · exact ⟨_, List.mem_cons_self, hx⟩
      · obtain ⟨p, hp, hP⟩ := ih d hd; exact ⟨p, List.mem_cons_of_mem _ hp, hP⟩
  unfold drawGrid at h
  by_cases hb : byTurns a hs vs = true
  · rw [if_pos hb] at h
    cases h
    have hall : ∀ d ∈ (alternated (hs.map fun p => (⟨.all, .hLine, asShapes p⟩ : DrawnPath K)) (vs.map fun p => ⟨.all, .vLine, asShapes p⟩)).filter (fun d => !d.shapes.isEmpty), d.layer = .all := by
      intro d hd
      have hd := (List.mem_filter.1 hd).1
      have := (C128_alternated (hs.map fun p => (⟨.all, .hLine, asShapes p⟩ : DrawnPath K)) (vs.map fun p => ⟨.all, .vLine, asShapes p⟩)).2.mem_iff.1 hd
      rcases List.mem_append.1 this with h | h <;> obtain ⟨p, hp, rfl⟩ := List.mem_map.1 h <;> rfl
    have ht := (turns_iff a hs vs).1 hb
    refine ⟨fun d hd => by rw [if_neg (fun h => h.2 ht)]; exact hall d hd, fun hne x => ?_⟩
    unfold gridLayers
    rw [hb, Bool.or_true, if_pos rfl, List.mem_singleton]
    obtain ⟨d, hd⟩ := List.exists_mem_of_ne_nil _ hne
    constructor
    · rintro rfl; exact ⟨d, hd, hall d hd⟩
    · rintro ⟨d, hd, rfl⟩; exact hall d hd
  · rw [if_neg hb] at h
    have ht : ¬ (a.both = true ∧ hs ≠ [] ∧ vs ≠ []) := fun k => hb ((turns_iff a hs vs).2 k)
    obtain ⟨o1, h1, h2⟩ := grid_lines_traces eps a (if a.gridLayers then .horizontal else .all) .hLine hs hh
    obtain ⟨o2, k1, k2⟩ := grid_lines_traces eps a (if a.gridLayers then .vertical else .all) .vLine vs hv
    rw [h1, k1] at h
    cases h
    have hl1 : ∀ d ∈ o1, d.layer = (if a.gridLayers then .horizontal else .all) ∧ d.style = .hLine := fun d hd => by
      obtain ⟨p, -, hp⟩ := mem1 h2 d hd; exact ⟨hp.1, hp.2.1⟩
    have hl2 : ∀ d ∈ o2, d.layer = (if a.gridLayers then .vertical else .all) ∧ d.style = .vLine := fun d hd => by
      obtain ⟨p, -, hp⟩ := mem1 k2 d hd; exact ⟨hp.1, hp.2.1⟩
    have hn1 : hs.length = o1.length := h2.length_eq
    have hn2 : vs.length = o2.length := k2.length_eq
    rw [Bool.not_eq_true] at hb
    refine ⟨fun d hd => ?_, fun hne x => ?_⟩
    · rcases List.mem_append.1 hd with hd | hd
      · rw [(hl1 d hd).1, (hl1 d hd).2]
        cases hg : a.gridLayers <;> simp [ht]
      · rw [(hl2 d hd).1, (hl2 d hd).2]
        cases hg : a.gridLayers <;> simp [ht]
    · unfold gridLayers
      rw [hb]
      cases hg : a.gridLayers with
      | false =>
        rw [hg] at hl1 hl2
        simp only [Bool.not_false, Bool.or_false, if_true, List.mem_singleton]
        obtain ⟨d, hd⟩ := List.exists_mem_of_ne_nil _ hne
        have hall : ∀ d ∈ o1 ++ o2, d.layer = .all := fun d hd => by
          rcases List.mem_append.1 hd with hd | hd
          · exact (hl1 d hd).1
          · exact (hl2 d hd).1
        constructor
        · rintro rfl; exact ⟨d, hd, hall d hd⟩
        · rintro ⟨d, hd, rfl⟩; exact hall d hd
      | true =>
        rw [hg] at hl1 hl2
        simp only [Bool.not_true, Bool.or_false, Bool.false_eq_true, if_false, List.mem_append, if_true] at hl1 hl2 ⊢
        constructor
        · rintro (hx | hx)
          · cases hs with
            | nil => cases hx
            | cons p ps =>
              rw [show x = .horizontal from List.mem_singleton.1 hx]
              cases o1 with
              | nil => cases hn1
              | cons d o1 => exact ⟨d, .inl List.mem_cons_self, (hl1 d List.mem_cons_self).1⟩
          · cases vs with
            | nil => cases hx
            | cons p ps =>
              rw [show x = .vertical from List.mem_singleton.1 hx]
              cases o2 with
              | nil => cases hn2
              | cons d o2 => exact ⟨d, .inr List.mem_cons_self, (hl2 d List.mem_cons_self).1⟩
        · rintro ⟨d, hd | hd, rfl⟩
          · left
            rw [(hl1 d hd).1]
            cases hs with
            | nil => rw [List.length_nil] at hn1; rw [List.length_eq_zero_iff.1 hn1.symm] at hd; cases hd
            | cons p ps => exact List.mem_singleton.2 rfl
          · right
            rw [(hl2 d hd).1]
            cases vs with
            | nil => rw [List.length_nil] at hn2; rw [List.length_eq_zero_iff.1 hn2.symm] at hd; cases hd
            | cons p ps => exact List.mem_singleton.2 rfl

/-- **C194**, without fillets: exactly the lines of the paths are drawn, also when lines are drawn by turns and fillets are asked for. -/
theorem C194_plain (eps : K) (a : DrawArgs K) (hs vs : List (List (Line K))) (hh : ∀ p ∈ hs, GaplessPath eps p) (hv : ∀ p ∈ vs, GaplessPath eps p)
    (h : a.fillet = false ∨ (a.radius <. eps) = true ∨ (a.both = true ∧ hs ≠ [] ∧ vs ≠ [])) :
    ∃ out, drawGrid eps a hs vs = .ok out ∧ out.map (fun d => (d.style, d.shapes)) = (paintOrder a hs vs).map fun p => (p.1, asShapes p.2) := by
  by_cases ht : a.both = true ∧ hs ≠ [] ∧ vs ≠ []
  · have hb := (turns_iff a hs vs).2 ht
    unfold drawGrid paintOrder
    rw [if_pos hb, if_pos ht]
    refine ⟨_, rfl, ?_⟩
    rw [List.filter_eq_self.2]
    · rw [alternated_map, alternated_map, List.map_map, List.map_map, List.map_map, List.map_map]; rfl
    · intro d hd
      have := (C128_alternated (hs.map fun p => (⟨.all, .hLine, asShapes p⟩ : DrawnPath K)) (vs.map fun p => ⟨.all, .vLine, asShapes p⟩)).2.mem_iff.1 hd
      rcases List.mem_append.1 this with h | h <;> obtain ⟨p, hp, rfl⟩ := List.mem_map.1 h
      · have := (hh p hp).1; cases p with
        | nil => exact absurd rfl this
        | cons l ls => rfl
      · have := (hv p hp).1; cases p with
        | nil => exact absurd rfl this
        | cons l ls => rfl
  · have hb : ¬ byTurns a hs vs = true := fun k => ht ((turns_iff a hs vs).1 k)
    have key : ∀ p, GaplessPath eps p → renderPath eps a p = .ok (some (asShapes p)) := by
      intro p hp
      unfold renderPath
      split
      · rfl
      · rw [if_neg (by have := hp.1; cases p with
          | nil => exact absurd rfl this
          | cons l ls => simp)]
        split
        · rename_i hf
          have hr : (a.radius <. eps) = true := by
            rcases h with h | h | h
            · rw [h] at hf; cases hf
            · exact h
            · exact absurd h ht
          unfold shapeFilletPath
          rw [hr]; rfl
        · rfl
    have loop : ∀ (layer : GridLayer) (style : GridStyle) (ps : List (List (Line K))), (∀ p ∈ ps, GaplessPath eps p) →
        renderLines eps a layer style ps = .ok (ps.map fun p => ⟨layer, style, asShapes p⟩) := by
      intro layer style ps hps
      induction ps with
      | nil => rfl
      | cons p ps ih =>
        rw [renderLines, key p (hps p List.mem_cons_self)]
        simp only [bind, Except.bind]
        rw [ih fun q hq => hps q (List.mem_cons_of_mem _ hq)]; rfl
    unfold drawGrid paintOrder
    rw [if_neg hb, if_neg ht, loop _ _ hs hh, loop _ _ vs hv]
    refine ⟨_, rfl, ?_⟩
    rw [List.map_append, List.map_append, List.map_map, List.map_map, List.map_map, List.map_map]; rfl

end

/-- **C194**, the whole of it: whatever lines there are and however they are ordered, turned around and connected, the drawing does not fail and draws every path of C128 once, without gaps. -/
theorem C194_run (eps : ℝ) (a : DrawArgs ℝ) (o o' : OrderArgs) (hl vl : List (Line ℝ)) :
    ∃ out, drawGrid eps a (orderedPaths eps o a.both hl) (orderedPaths eps o' a.both vl) = .ok out ∧
      List.Forall₂ (fun p d => d.style = p.1 ∧ TracesPath eps p.2 d.shapes) (paintOrder a (orderedPaths eps o a.both hl) (orderedPaths eps o' a.both vl)) out := by
  have good : ∀ (o : OrderArgs) (ls : List (Line ℝ)), ∀ p ∈ orderedPaths eps o a.both ls, GaplessPath eps p := by
    intro o ls p hp
    unfold orderedPaths at hp
    obtain ⟨qs, hqs⟩ : ∃ qs, p ∈ connectedPaths eps qs := ⟨_, hp⟩
    have hs := C128_paths eps qs
    refine ⟨hs.nonempty p hqs, ?_⟩
    have hc := hs.continuous p hqs
    unfold Continuous at hc
    exact hc.imp fun a b hab => (eq_iff _ _ _).2 hab
  exact C194_drawn eps a _ _ (good o hl) (good o' vl)

/-- **C194**, fillets: what is drawn for a path along the points `a`, `v`, `b`, … with room for the fillets at its corners is smooth everywhere, and consists of parts of its lines and of arcs of the given radius
that touch two lines which follow each other. -/
theorem C194_rounded {eps : ℝ} (heps : 0 < eps) (args : DrawArgs ℝ) (hf : args.fillet = true) (hr : eps ≤ args.radius) (a v b : P ℝ) (rest : List (P ℝ)) (path : List (Line ℝ))
    (hp : asShapes path = linesFrom a (v :: b :: rest)) (hroom : Room eps args.radius 0 0 a v (b :: rest)) :
    ∃ out, renderPath eps args path = .ok (some out) ∧ out.IsChain SmoothAt ∧ ∀ s ∈ out, RoundedPart args.radius (a :: v :: b :: rest) s := by
  obtain ⟨z, hz⟩ : ∃ z, (b :: rest).getLast? = some z := ⟨_, List.getLast?_eq_some_getLast (by simp)⟩
  obtain ⟨out, h1, h2, h3, -⟩ := C122_open heps hr false a v b rest hroom z hz (.inl rfl)
  have hlen : path.length = rest.length + 2 := by
    have := congrArg List.length hp
    rw [linesFrom_length] at this
    simpa [asShapes] using this
  refine ⟨out, ?_, h2, h3⟩
  unfold renderPath
  rw [if_neg (by omega), if_neg (by cases path with
    | nil => simp at hlen
    | cons l ls => simp), if_pos hf, hp, C122_path eps args.radius (by simpa using hr) false a v b rest (.inr (.inl rfl)), h1]
  rfl

/-- Non-vacuity of `C194_drawn` and `C194_layers`: two horizontal lines that are connected, with fillets, and a vertical one. -/
example : (drawGrid (1/1000000 : ℚ) ⟨false, true, true, 1⟩ [[⟨⟨0, 0⟩, ⟨10, 0⟩⟩, ⟨⟨10, 0⟩, ⟨10, 4⟩⟩, ⟨⟨10, 4⟩, ⟨0, 4⟩⟩]] [[⟨⟨3, 0⟩, ⟨3, 4⟩⟩]]).toOption.map (fun out => out.map fun d => (d.layer, d.style, d.shapes.length)) =
    some [(.horizontal, .hLine, 5), (.vertical, .vLine, 1)] := by decide +kernel

/-- Non-vacuity: these paths have no gaps. -/
example : GaplessPath (1/1000000 : ℚ) [⟨⟨0, 0⟩, ⟨10, 0⟩⟩, ⟨⟨10, 0⟩, ⟨10, 4⟩⟩, ⟨⟨10, 4⟩, ⟨0, 4⟩⟩] := by
  refine ⟨by simp, ?_⟩
  simp only [List.isChain_cons_cons, List.isChain_singleton]
  decide +kernel

/-- Non-vacuity of `C194_plain`: the same paths by turns are drawn without fillets. -/
example : (drawGrid (1/1000000 : ℚ) ⟨true, true, true, 1⟩ [[⟨⟨0, 0⟩, ⟨10, 0⟩⟩, ⟨⟨10, 0⟩, ⟨10, 4⟩⟩, ⟨⟨10, 4⟩, ⟨0, 4⟩⟩]] [[⟨⟨3, 0⟩, ⟨3, 4⟩⟩]]).toOption.map (fun out => out.map fun d => (d.layer, d.style, d.shapes.length)) =
    some [(.all, .hLine, 3), (.all, .vLine, 1)] := by decide +kernel

/-- Non-vacuity of `C194_rounded`: two grid lines and the connection between them have room for fillets of radius 1. -/
example : asShapes [⟨⟨0, 0⟩, ⟨0 + 10, 0⟩⟩, ⟨⟨0 + 10, 0⟩, ⟨0 + 10, (0 + 4 : ℝ)⟩⟩, ⟨⟨0 + 10, 0 + 4⟩, ⟨0 + 10 + 3, 0 + 4⟩⟩] = linesFrom ⟨0, 0⟩ [⟨0 + 10, 0⟩, ⟨0 + 10, 0 + 4⟩, ⟨0 + 10 + 3, 0 + 4⟩] ∧
    Room (1 / 1000) 1 0 0 ⟨0, 0⟩ ⟨0 + 10, 0⟩ [⟨0 + 10, 0 + 4⟩, ⟨0 + 10 + 3, 0 + 4⟩] := by
  refine ⟨rfl, ?_⟩
  simp only [Room, (dirTo_x 0 0 10 (by norm_num)).1, (dirTo_y (0 + 10) 0 4 (by norm_num)).1, (dirTo_x (0 + 10) (0 + 4) 3 (by norm_num)).1,
    (dirTo_x 0 0 10 (by norm_num)).2, (dirTo_y (0 + 10) 0 4 (by norm_num)).2, (dirTo_x (0 + 10) (0 + 4) 3 (by norm_num)).2, ClearCorner, cutOf, crossOf, dotOf]
  norm_num

end Verif.Ext
