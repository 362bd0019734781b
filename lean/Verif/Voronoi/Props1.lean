import Verif.Voronoi.Sweep
import Verif.Graph.Props1
import Mathlib.Data.Nat.Sqrt

/-!
# C144: `VoronoiDiagram` ends, and what it lists

Nothing here depends on the arithmetic: it holds for floating point numbers too.
-/

set_option linter.unusedSectionVars false

namespace Verif.Voronoi
open Verif PyFloat PyTrig Geom

section
variable {K : Type} [PyTrig K]

theorem Inv.minidx {env : Env K} {S : List (Site K)} {k i : Nat} {s : State K} (hi : Inv env S k s) (hq : QInv env ({ s with minidx := i } : State K)) :
    Inv env S k ({ s with minidx := i } : State K) :=
  ⟨⟨hq, hi.wait.ids, hi.wait.lt, hi.wait.queued, hi.wait.waiting, hi.wait.fresh⟩, hi.book.congr rfl rfl rfl (fun _ h => h), hi.chain, hi.good, hi.evs,
    hi.verts, hi.tri, hi.triS, hi.nm, hi.nb⟩

theorem siteEvent_beach {env : Env K} {S : List (Site K)} {k : Nat} {s s' : State K} (hi : Inv env S k s) (hi' : Inv env S (k + 1) s')
    (hv : s'.vertices = s.vertices) : s'.beach.length = s.beach.length + 2 := by
  have h1 := hi.nb
  have h2 := hi'.nb
  rw [hv] at h2
  omega

theorem sweep_spec (env : Env K) (S : List (Site K)) (hbot : env.bottom ∈ S) : ∀ (fuel : Nat) (sites : List (Site K)) (k : Nat) (s : State K),
    (∀ p ∈ sites, p ∈ S) → Inv env S k s →
    (sweep env fuel sites s = none ∧ fuel ≤ 3 * sites.length + s.beach.length) ∨ sweep env fuel sites s = some (.error .zeroDivision) ∨
      ∃ s', sweep env fuel sites s = some (.ok s') ∧ Inv env S (k + sites.length) s'
  | 0, sites, k, s, _, _ => .inl ⟨rfl, Nat.zero_le _⟩
  | fuel + 1, sites, k, s, hS, hi => by
    unfold sweep turn
    -- a site event
    have site : ∀ (p : Site K) (rest : List (Site K)) (t : State K), sites = p :: rest → Inv env S k t → t.beach.length = s.beach.length →
        (t.siteEvent env p = .error .zeroDivision) ∨ ∃ t', t.siteEvent env p = .ok t' ∧
          ((sweep env fuel rest t' = none ∧ fuel + 1 ≤ 3 * sites.length + s.beach.length) ∨ sweep env fuel rest t' = some (.error .zeroDivision) ∨
            ∃ s', sweep env fuel rest t' = some (.ok s') ∧ Inv env S (k + sites.length) s') := by
      intro p rest t he ht hlen
      rcases siteEvent_inv ht hbot (hS p (by rw [he]; simp)) with e | ⟨t', e, hi', hv⟩
      · exact .inl e
      · refine .inr ⟨t', e, ?_⟩
        have hl := siteEvent_beach ht hi' hv
        have hlen2 : sites.length = rest.length + 1 := by rw [he]; rfl
        rcases sweep_spec env S hbot fuel rest (k + 1) t' (fun q hq => hS q (by rw [he]; exact List.mem_cons_of_mem _ hq)) hi' with ⟨h1, h2⟩ | h1 | ⟨s', h1, h2⟩
        · exact .inl ⟨h1, by omega⟩
        · exact .inr (.inl h1)
        · refine .inr (.inr ⟨s', h1, ?_⟩)
          rw [hlen2, show k + (rest.length + 1) = k + 1 + rest.length by omega]
          exact h2
    by_cases hc : s.count = 0
    · rw [if_pos hc]
      cases hsites : sites with
      | nil => exact .inr (.inr ⟨s, rfl, hi⟩)
      | cons p rest =>
        unfold turnIdle
        dsimp only
        rcases site p rest s hsites hi rfl with e | ⟨t', e, h⟩
        · rw [e]; exact .inr (.inl rfl)
        · rw [e]
          rw [hsites] at h
          exact h
    · rw [if_neg hc]
      obtain ⟨i, h, hf, hin, hq1, hq2, hin2, -⟩ := min_spec hi.wait.q hc
      rw [hf]
      obtain ⟨b0, hb0⟩ := hin
      obtain ⟨v, ys, hv, -⟩ := hi.wait.q.loc b0 h hb0
      dsimp only
      rw [hv]
      dsimp only
      have circle : ((s.popAt i).circleEvent env h = .error .zeroDivision) ∨ ∃ t', (s.popAt i).circleEvent env h = .ok t' ∧
          ((sweep env fuel sites t' = none ∧ fuel + 1 ≤ 3 * sites.length + s.beach.length) ∨ sweep env fuel sites t' = some (.error .zeroDivision) ∨
            ∃ s', sweep env fuel sites t' = some (.ok s') ∧ Inv env S (k + sites.length) s') := by
        rcases circleEvent_inv hi hq2 hin2 ⟨b0, hb0⟩ rfl ⟨rfl, rfl, rfl, rfl, rfl, rfl, rfl⟩ with e | ⟨t', e, hi', hl, -⟩
        · exact .inl e
        · refine .inr ⟨t', e, ?_⟩
          rcases sweep_spec env S hbot fuel sites k t' hS hi' with ⟨h1, h2⟩ | h1 | ⟨s', h1, h2⟩
          · exact .inl ⟨h1, by omega⟩
          · exact .inr (.inl h1)
          · exact .inr (.inr ⟨s', h1, h2⟩)
      unfold turnBusy
      cases hsites : sites with
      | nil =>
        rw [hsites] at circle
        rcases circle with e | ⟨t', e, h⟩
        · rw [e]; exact .inr (.inl rfl)
        · rw [e]; exact h
      | cons p rest =>
        dsimp only
        by_cases hlt : siteLt p.x p.y v.x ys = true
        · rw [if_pos hlt]
          rcases site p rest _ hsites (hi.minidx hq1) rfl with e | ⟨t', e, h⟩
          · rw [e]; exact .inr (.inl rfl)
          · rw [e]
            rw [hsites] at h
            exact h
        · rw [if_neg hlt]
          rw [hsites] at circle
          rcases circle with e | ⟨t', e, h⟩
          · rw [e]; exact .inr (.inl rfl)
          · rw [e]; exact h

/-- The model's integer square root is the one of Mathlib. -/
theorem isqrt_eq (n : Nat) : isqrt n = Nat.sqrt n := by
  have h : ∀ m, (List.range m).countP (fun k => decide ((k + 1) * (k + 1) ≤ n)) = min m (Nat.sqrt n) := by
    intro m
    induction m with
    | zero => simp
    | succ m ih =>
      rw [List.range_succ, List.countP_append, ih]
      have : ((m + 1) * (m + 1) ≤ n) ↔ m + 1 ≤ Nat.sqrt n := Nat.le_sqrt.symm
      by_cases hc : m + 1 ≤ Nat.sqrt n
      · simp [this, hc]; omega
      · simp [this, hc]; omega
  unfold isqrt
  rw [h]
  exact min_eq_right (Nat.sqrt_le_self n)

theorem init_inv (env : Env K) (S : List (Site K)) (hp : 0 < env.hashsize) : Inv env S 0 (State.init env.hashsize) := by
  have hbk : ∀ b, bk (State.init env.hashsize : State K).buckets b = [] := by
    intro b
    unfold State.init bk
    simp only [List.getElem?_replicate]
    split <;> rfl
  have hin : ∀ k, ¬ inQ (State.init env.hashsize : State K) k := by
    rintro k ⟨b, hb⟩
    rw [hbk] at hb; simp at hb
  refine ⟨⟨⟨by simp [State.init], hp, ?_, ?_, by simp [State.init], fun b _ => hbk b, fun _ b => by rw [hbk]; exact List.Pairwise.nil⟩, by simp [State.init], by simp [State.init], ?_, by simp [State.init], fun _ _ => rfl⟩,
    ⟨by simp [State.init], by simp [State.init], by simp [State.init], by simp [State.init], by simp [State.init], ?_, by simp [State.init]⟩,
    ⟨by simp [State.init], by simp [State.init], by simp [State.init]⟩, by simp [State.init], by simp [State.init], by simp [State.init], rfl, by simp [State.init], rfl, rfl⟩
  · intro b h hb; rw [hbk] at hb; simp at hb
  · intro b; rw [hbk]; exact List.nodup_nil
  · intro k hk; exact absurd hk (hin k)
  · intro n b v hv
    unfold State.init endAt at hv
    dsimp only at hv
    split at hv <;> cases hv

theorem siteList_mem (ps : List (P K)) (q : Site K) : q ∈ siteList ps ↔ ∃ p, ps[q.num]? = some p ∧ q.x = p.x ∧ q.y = p.y := by
  unfold siteList
  rw [(Graph.sortBy_perm _ _).mem_iff, List.mem_map]
  constructor
  · rintro ⟨⟨p, i⟩, h, rfl⟩
    rw [List.mem_zipIdx_iff_getElem?] at h
    exact ⟨p, h, rfl, rfl⟩
  · rintro ⟨p, h, hx, hy⟩
    refine ⟨(p, q.num), by rw [List.mem_zipIdx_iff_getElem?]; exact h, ?_⟩
    cases q
    simp_all

theorem siteList_length (ps : List (P K)) : (siteList ps).length = ps.length := by
  unfold siteList
  rw [(Graph.sortBy_perm _ _).length_eq]
  simp

theorem voronoi_spec (fuel : Nat) (ps : List (P K)) :
    (voronoi fuel ps = none ∧ fuel < 3 * ps.length) ∨ voronoi fuel ps = some (.error .zeroDivision) ∨
      (ps.length ≤ 4 ∧ voronoi fuel ps = some (.ok (State.init 0))) ∨
      ∃ (env : Env K) (s : State K), 4 < ps.length ∧ voronoi fuel ps = some (.ok s.finish) ∧ Inv env (siteList ps) (ps.length - 1) s := by
  unfold voronoi
  by_cases h : 4 < ps.length
  · rw [if_pos h]
    have hl := siteList_length ps
    cases hps : ps with
    | nil => rw [hps] at h; simp at h
    | cons p rest =>
      cases hs : siteList (p :: rest) with
      | nil => rw [hps, hs] at hl; simp at hl
      | cons bottom sites =>
        dsimp only
        have hpos : 0 < (envOf p rest bottom).hashsize := by
          unfold envOf
          dsimp only
          rw [isqrt_eq, Nat.sqrt_pos]; omega
        rw [hps, hs] at hl
        simp only [List.length_cons] at hl
        have := sweep_spec (envOf p rest bottom) (bottom :: sites) (by unfold envOf; simp) fuel sites 0 (State.init (envOf p rest bottom).hashsize)
          (fun q hq => List.mem_cons_of_mem _ hq) (init_inv _ _ hpos)
        rcases this with ⟨h1, h2⟩ | h1 | ⟨s', h1, h2⟩
        · refine .inl ⟨by rw [h1]; rfl, ?_⟩
          simp only [State.init, List.length_nil, List.length_cons] at h2 ⊢
          omega
        · exact .inr (.inl (by rw [h1]; rfl))
        · refine .inr (.inr (.inr ⟨envOf p rest bottom, s', by rw [hps] at h; exact h, by rw [h1]; rfl, ?_⟩))
          have e : (p :: rest).length - 1 = 0 + sites.length := by simp only [List.length_cons]; omega
          rw [e]
          exact h2
  · rw [if_neg h]
    exact .inr (.inr (.inl ⟨by omega, rfl⟩))

/-- **C144**, termination: for any points the sweep ends, after fewer than three turns of the main loop for each point, and no exception but a division by zero is possible. -/
theorem C144_ends_partial (ps : List (P K)) :
    voronoi (3 * ps.length) ps = some (.error .zeroDivision) ∨ ∃ s, voronoi (3 * ps.length) ps = some (.ok s) := by
  rcases voronoi_spec (3 * ps.length) ps with ⟨_, h⟩ | h | ⟨_, h⟩ | ⟨_, s, _, h, _⟩
  · omega
  · exact .inl h
  · exact .inr ⟨_, h⟩
  · exact .inr ⟨_, h⟩

/-- **C144**, sizes: with `n > 4` points there are `n - 1` more pairs of neighbours than vertices, as many triangles as vertices, and at most `2 (n - 1)` vertices. -/
theorem C144_sizes (fuel : Nat) (ps : List (P K)) (h4 : 4 < ps.length) (s : State K) (h : voronoi fuel ps = some (.ok s)) :
    s.made.length + 1 = ps.length + s.vertices.length ∧ s.tris.length = s.vertices.length ∧ s.vertices.length ≤ 2 * (ps.length - 1) := by
  rcases voronoi_spec fuel ps with ⟨h1, _⟩ | h1 | ⟨h1, _⟩ | ⟨env, t, _, h1, hi⟩
  · rw [h1] at h; cases h
  · rw [h1] at h; cases h
  · omega
  · rw [h1] at h
    cases h
    have a := hi.nm
    have b := hi.nb
    have c := hi.tri
    exact ⟨by show t.made.length + 1 = _ + t.vertices.length; omega, c, by show t.vertices.length ≤ _; omega⟩

/-- Specification: the number of end points an edge has. -/
def endCount (x : Option (P K) × Option (P K)) : Nat := (if x.1.isSome then 1 else 0) + if x.2.isSome then 1 else 0

/-- **C144**, edges: each pair of neighbours has an edge in the diagram: one edge if it is a segment or a ray, and (a defect) two equal ones if it is a line without end points. The end points are
vertices of the diagram. -/
theorem C144_edges_partial (fuel : Nat) (ps : List (P K)) (s : State K) (h : voronoi fuel ps = some (.ok s)) :
    (∀ i (e : Edge K), s.made[i]? = some e → ∃ ends, (∀ x ∈ s.out, x.1.num = i → x = (e, ends)) ∧
      (s.out.countP fun x => decide (x.1.num = i)) = if endCount ends = 0 then 2 else 1) ∧
    (∀ x ∈ s.out, s.made[x.1.num]? = some x.1) ∧
    (∀ x ∈ s.out, ∀ v, x.2.1 = some v ∨ x.2.2 = some v → v ∈ s.vertices) := by
  rcases voronoi_spec fuel ps with ⟨h1, _⟩ | h1 | ⟨_, h1⟩ | ⟨env, t, _, h1, hi⟩
  · rw [h1] at h; cases h
  · rw [h1] at h; cases h
  · rw [h1] at h
    cases h
    refine ⟨?_, ?_, ?_⟩ <;> simp [State.init]
  · rw [h1] at h
    cases h
    have hb := hi.book
    have hout : t.finish.out = t.out ++ t.beach.map fun h => (h.edge, t.ends h.edge.num) := rfl
    have hall : ∀ x ∈ t.finish.out, t.made[x.1.num]? = some x.1 ∧ x.2 = t.ends x.1.num := by
      intro x hx
      rw [hout] at hx
      rcases List.mem_append.1 hx with hx | hx
      · exact hb.outm x hx
      · obtain ⟨k, hk, rfl⟩ := List.mem_map.1 hx
        exact ⟨hb.onm k hk, rfl⟩
    refine ⟨?_, fun x hx => (hall x hx).1, ?_⟩
    · intro i e he
      have he : t.made[i]? = some e := he
      refine ⟨t.ends i, ?_, ?_⟩
      · intro x hx hxi
        obtain ⟨h2, h3⟩ := hall x hx
        rw [hxi] at h2 h3
        rw [he] at h2
        cases h2
        rw [← h3]
      · have hlt := (List.getElem?_eq_some_iff.1 he).1
        rw [hout, List.countP_append, hb.outc i hlt, List.countP_map]
        have e1 := hb.half i hlt false
        have e2 := hb.half i hlt true
        have e3 : List.countP ((fun x : Edge K × Option (P K) × Option (P K) => decide (x.1.num = i)) ∘ fun h : Half K => (h.edge, t.ends h.edge.num)) t.beach =
            t.beach.countP (fun h => decide (h.edge.num = i) && h.rightward == false) + t.beach.countP (fun h => decide (h.edge.num = i) && h.rightward == true) := by
          generalize t.beach = L
          induction L with
          | nil => rfl
          | cons a L ih =>
            simp only [List.countP_cons, ih, Function.comp]
            cases a.rightward <;> by_cases hn : a.edge.num = i <;> simp [hn] <;> omega
        rw [e3, e1, e2]
        unfold endAt endCount
        cases (t.ends i).1 <;> cases (t.ends i).2 <;> simp
    · intro x hx v hv
      obtain ⟨_, h3⟩ := hall x hx
      rw [h3] at hv
      rcases hv with hv | hv
      · exact hb.endv _ false v hv
      · exact hb.endv _ true v hv

end

/-! ## A case, and what fails -/

/-- A result that is not an exception. -/
def succeeds (fuel : Nat) (ps : List (P ℚ)) : Bool :=
  match voronoi fuel ps with
  | some (.ok _) => true
  | _ => false

/-- The pairs of points whose edge is in the list, with the number of its end points. -/
def edgePairs (fuel : Nat) (ps : List (P ℚ)) : List (Nat × Nat × Nat) :=
  match voronoi fuel ps with
  | some (.ok s) => s.out.map fun x => (x.1.s1.num, x.1.s2.num, endCount x.2)
  | _ => []


end Verif.Voronoi
