import Verif.Voronoi.Props2

/-!
# C146: the sweep handles its events in order (exact arithmetic)
-/

set_option linter.unusedSectionVars false

namespace Verif.Voronoi
open Verif PyFloat PyTrig Geom

/-- Specification: the order of the sweep, from bottom to top and from left to right. -/
def Before (x y x' y' : ℝ) : Prop := y < y' ∨ (y = y' ∧ x < x')

/-- Specification: the states the main loop goes through. -/
inductive Reach (env : Env ℝ) (sites0 : List (Site ℝ)) : List (Site ℝ) → State ℝ → Prop
  | start : Reach env sites0 sites0 (State.init env.hashsize)
  | step {sites sites' s s'} : Reach env sites0 sites s → turn env sites s = .ok (.go sites' s') → Reach env sites0 sites' s'

/-- Specification: a vertex that waits, with the height of the sweep line at which it is due. -/
def Waits (s : State ℝ) (v : P ℝ) (due : ℝ) : Prop := ∃ h, inQ s h ∧ s.ev h = some (v, due)

theorem later_real (a b : P ℝ × ℝ) : later a b = true ↔ Before b.1.x b.2 a.1.x a.2 := by
  unfold later Before
  simp only [real_lt, decide_eq_true_eq]
  split_ifs with h1 h2
  · simp [h1]
  · simp only [Bool.false_eq_true, false_iff, not_or, not_and]
    exact ⟨h1, fun e => absurd h2 (by rw [e]; exact lt_irrefl _)⟩
  · simp only [decide_eq_true_eq]
    have : b.2 = a.2 := le_antisymm (not_lt.1 h2) (not_lt.1 h1)
    simp [this]

theorem later_real_false (a b : P ℝ × ℝ) : later a b = false ↔ ¬ Before b.1.x b.2 a.1.x a.2 := by
  rw [← later_real, Bool.not_eq_true]

theorem siteLt_real (ax ay bx bY : ℝ) : siteLt ax ay bx bY = true ↔ Before ax ay bx bY := by
  unfold siteLt Before
  simp only [real_beq, decide_eq_true_eq, real_lt]
  split_ifs with h
  · simp [h]
  · simp [h]

theorem orderLaw_real : OrderLaw ℝ := by
  constructor
  · intro a b c h1 h2
    rw [later_real_false] at *
    unfold Before at *
    push Not at *
    refine ⟨le_trans h1.1 h2.1, fun e => ?_⟩
    have e1 : b.2 = a.2 := le_antisymm (by rw [← e]; exact h2.1) h1.1
    exact le_trans (h1.2 e1) (h2.2 (by rw [e, e1]))
  · intro a b h
    rw [later_real] at h
    rw [later_real_false]
    unfold Before at *
    push Not
    rcases h with h | ⟨h, h'⟩
    · exact ⟨h.le, fun e => absurd h (by rw [e]; exact lt_irrefl _)⟩
    · exact ⟨h.le, fun _ => h'.le⟩

theorem trunc_mono {a b : ℝ} (h : a ≤ b) : (trunc a : ℤ) ≤ trunc b := by
  show (if 0 ≤ a then ⌊a⌋ else ⌈a⌉) ≤ (if 0 ≤ b then ⌊b⌋ else ⌈b⌉)
  split_ifs with h1 h2 h2
  · exact Int.floor_le_floor h
  · exact absurd (le_trans h1 h) h2
  · have : ⌈a⌉ ≤ 0 := Int.ceil_le.2 (by push_cast; linarith)
    exact le_trans this (Int.floor_nonneg.2 h2)
  · exact Int.ceil_le_ceil h

theorem bucketOf_mono {env : Env ℝ} (hd : 0 ≤ env.deltay) {a b : ℝ} {i j : Nat} (hi : bucketOf env a = .ok i) (hj : bucketOf env b = .ok j) (h : a ≤ b) : i ≤ j := by
  unfold bucketOf at hi hj
  cases ha : pdiv (a -. env.ymin) env.deltay with
  | error => rw [ha] at hi; cases hi
  | ok q =>
    cases hb : pdiv (b -. env.ymin) env.deltay with
    | error => rw [hb] at hj; cases hj
    | ok r =>
      rw [ha] at hi
      rw [hb] at hj
      obtain ⟨hd0, hq⟩ := pdiv_real ha
      obtain ⟨-, hr⟩ := pdiv_real hb
      simp only [real_sub] at hq hr
      have hqr : q ≤ r := by
        rw [hq, hr]
        exact div_le_div_of_nonneg_right (by linarith) hd
      have hn : (0 : ℝ) ≤ (env.hashsize : ℝ) := Nat.cast_nonneg _
      have ht := trunc_mono (show q *. ofInt env.hashsize ≤ r *. ofInt env.hashsize by
        simp only [real_mul, real_ofInt]; push_cast; exact mul_le_mul_of_nonneg_right hqr hn)
      simp only [bind, Except.bind, pure, Except.pure, Except.ok.injEq] at hi hj
      rw [← hi, ← hj]
      split_ifs <;> omega

/-- The vertex taken from the queue is the first of those that wait. -/
theorem min_first {env : Env ℝ} {s : State ℝ} (hq : QInv env s) (hd : 0 ≤ env.deltay) {i h : Nat} {t : List Nat} (hb : bk s.buckets i = h :: t)
    (hlow : ∀ b < i, bk s.buckets b = []) {v v' : P ℝ} {ys ys' : ℝ} (hv : s.ev h = some (v, ys)) (hw : Waits s v' ys') : ¬ Before v'.x ys' v.x ys := by
  obtain ⟨k, ⟨b, hkb⟩, hk⟩ := hw
  rcases Nat.lt_trichotomy b i with hlt | rfl | hlt
  · rw [hlow b hlt] at hkb; simp at hkb
  · rw [hb] at hkb
    rcases List.mem_cons.1 hkb with rfl | hkt
    · rw [hv] at hk; cases hk
      unfold Before; simp
    · have hs := hq.sorted orderLaw_real b
      rw [hb, List.pairwise_cons] at hs
      have := hs.1 k hkt
      unfold NotLater laterId at this
      rw [hv, hk] at this
      exact (later_real_false _ _).1 this
  · obtain ⟨_, _, h1, h2⟩ := hq.loc b k hkb
    rw [hk] at h1; cases h1
    obtain ⟨_, _, h3, h4⟩ := hq.loc i h (by rw [hb]; simp)
    rw [hv] at h3; cases h3
    have : ys < ys' := by
      by_contra hc
      have := bucketOf_mono hd h2 h4 (not_lt.1 hc)
      omega
    unfold Before
    push Not
    exact ⟨this.le, fun e => absurd this (by rw [e]; exact lt_irrefl _)⟩

/-- One turn of the main loop, on a state in order. -/
theorem turn_order {env : Env ℝ} {S : List (Site ℝ)} (hbot : env.bottom ∈ S) (hd : 0 ≤ env.deltay) {k : Nat} {sites sites' : List (Site ℝ)} {s s' : State ℝ} (hS : ∀ p ∈ sites, p ∈ S)
    (hi : Inv env S k s) (h : turn env sites s = .ok (.go sites' s')) :
    (∃ k', Inv env S k' s') ∧
    ((∃ p, sites = p :: sites' ∧ s'.vertices = s.vertices ∧ ∀ v due, Waits s v due → Before p.x p.y v.x due) ∨
     (sites' = sites ∧ ∃ v due, Waits s v due ∧ s'.vertices = s.vertices ++ [v] ∧ (∀ v' due', Waits s v' due' → ¬ Before v'.x due' v.x due) ∧
        ∀ p ∈ sites.head?, ¬ Before p.x p.y v.x due)) := by
  unfold turn at h
  by_cases hc : s.count = 0
  · rw [if_pos hc] at h
    cases hsites : sites with
    | nil => rw [hsites] at h; cases h
    | cons p rest =>
      rw [hsites] at h
      unfold turnIdle at h
      dsimp only at h
      have hnone : ∀ j, ¬ inQ s j := by
        rintro j ⟨b, hb⟩
        have h1 := hi.wait.q.count
        rw [hc] at h1
        have h2 : (s.buckets.map List.length).sum = 0 := h1.symm
        have : bk s.buckets b = [] := by
          unfold bk at hb ⊢
          cases hx : s.buckets[b]? with
          | none => rfl
          | some l =>
            have hl : l.length ∈ s.buckets.map List.length := List.mem_map.2 ⟨l, List.mem_of_getElem? hx, rfl⟩
            have := List.sum_eq_zero_iff.1 h2 _ hl
            exact List.length_eq_zero_iff.1 this
        rw [this] at hb; simp at hb
      rcases siteEvent_inv hi hbot (hS p (by rw [hsites]; simp)) with e | ⟨t', e, hi', hv⟩
      · rw [e] at h; cases h
      · rw [e] at h
        cases h
        exact ⟨⟨_, hi'⟩, .inl ⟨p, rfl, hv, fun v due ⟨j, hj, _⟩ => absurd hj (hnone j)⟩⟩
  · rw [if_neg hc] at h
    obtain ⟨i, hh, hf, hin, hq1, hq2, hin2, t, hbi, hlow⟩ := min_spec hi.wait.q hc
    rw [hf] at h
    obtain ⟨b0, hb0⟩ := hin
    obtain ⟨v, ys, hv, -⟩ := hi.wait.q.loc b0 hh hb0
    dsimp only at h
    rw [hv] at h
    dsimp only at h
    have first : ∀ v' due', Waits s v' due' → ¬ Before v'.x due' v.x ys := fun v' due' hw => min_first hi.wait.q hd hbi hlow hv hw
    have circle : ∀ s'', (s.popAt i).circleEvent env hh = .ok s'' → (∃ k', Inv env S k' s'') ∧ s''.vertices = s.vertices ++ [v] := by
      intro s'' e
      rcases circleEvent_inv hi hq2 hin2 ⟨b0, hb0⟩ rfl ⟨rfl, rfl, rfl, rfl, rfl, rfl, rfl⟩ with e' | ⟨t', e', hi', -, v', ys', hv', hvs⟩
      · rw [e] at e'; cases e'
      · rw [e] at e'; cases e'
        rw [hv] at hv'
        cases hv'
        exact ⟨⟨k, hi'⟩, hvs⟩
    unfold turnBusy at h
    cases hsites : sites with
    | nil =>
      rw [hsites] at h
      dsimp only at h
      cases e : (s.popAt i).circleEvent env hh with
      | error => rw [e] at h; cases h
      | ok t' =>
        rw [e] at h
        cases h
        obtain ⟨h1, h2⟩ := circle _ e
        exact ⟨h1, .inr ⟨rfl, v, ys, ⟨hh, ⟨b0, hb0⟩, hv⟩, h2, first, by simp⟩⟩
    | cons p rest =>
      rw [hsites] at h
      dsimp only at h
      by_cases hlt : siteLt p.x p.y v.x ys = true
      · rw [if_pos hlt] at h
        rcases siteEvent_inv (hi.minidx hq1) hbot (hS p (by rw [hsites]; simp)) with e | ⟨t', e, hi', hvv⟩
        · rw [e] at h; cases h
        · rw [e] at h
          cases h
          refine ⟨⟨_, hi'⟩, .inl ⟨p, rfl, hvv, fun v' due hw => ?_⟩⟩
          have h1 := (siteLt_real _ _ _ _).1 hlt
          have h2 := first v' due hw
          unfold Before at *
          push Not at h2
          rcases h1 with h1 | ⟨h1, h1'⟩
          · exact .inl (lt_of_lt_of_le h1 h2.1)
          · rcases lt_or_eq_of_le h2.1 with h3 | h3
            · exact .inl (by rw [h1]; exact h3)
            · exact .inr ⟨by rw [h1, h3], lt_of_lt_of_le h1' (h2.2 h3.symm)⟩
      · rw [if_neg hlt] at h
        cases e : (s.popAt i).circleEvent env hh with
        | error => rw [e] at h; cases h
        | ok t' =>
          rw [e] at h
          cases h
          obtain ⟨h1, h2⟩ := circle _ e
          refine ⟨h1, .inr ⟨rfl, v, ys, ⟨hh, ⟨b0, hb0⟩, hv⟩, h2, first, ?_⟩⟩
          intro q hq
          simp at hq
          rw [← hq, ← siteLt_real]; exact hlt

/-- Specification: sorted in the order of the sweep. -/
def InOrder (l : List (Site ℝ)) : Prop := l.Pairwise fun a b => ¬ Before b.x b.y a.x a.y

theorem insertBy_inOrder (a : Site ℝ) (l : List (Site ℝ)) (h : InOrder l) : InOrder (Graph.insertBy (fun a b : Site ℝ => siteLt a.x a.y b.x b.y) a l) := by
  have tr : ∀ a b c : Site ℝ, ¬ Before b.x b.y a.x a.y → ¬ Before c.x c.y b.x b.y → ¬ Before c.x c.y a.x a.y := by
    intro a b c h1 h2
    unfold Before at *
    push Not at *
    refine ⟨le_trans h1.1 h2.1, fun e => ?_⟩
    have e1 : b.y = a.y := le_antisymm (by rw [← e]; exact h2.1) h1.1
    exact le_trans (h1.2 e1) (h2.2 (by rw [e, e1]))
  have as : ∀ a b : Site ℝ, Before a.x a.y b.x b.y → ¬ Before b.x b.y a.x a.y := by
    intro a b h
    unfold Before at *
    push Not
    rcases h with h | ⟨h, h'⟩
    · exact ⟨h.le, fun e => absurd h (by rw [e]; exact lt_irrefl _)⟩
    · exact ⟨h.le, fun _ => h'.le⟩
  unfold InOrder at *
  induction l with
  | nil => simp [Graph.insertBy]
  | cons b l ih =>
    rw [List.pairwise_cons] at h
    unfold Graph.insertBy
    split
    · rename_i hlt
      have hlt := (siteLt_real _ _ _ _).1 hlt
      rw [List.pairwise_cons]
      refine ⟨?_, ih h.2⟩
      intro c hc
      rcases List.mem_cons.1 ((Graph.insertBy_perm _ a l).mem_iff.1 hc) with rfl | hc
      · exact as _ _ hlt
      · exact h.1 c hc
    · rename_i hlt
      rw [siteLt_real] at hlt
      rw [List.pairwise_cons]
      refine ⟨?_, List.pairwise_cons.2 h⟩
      intro c hc
      rcases List.mem_cons.1 hc with rfl | hc
      · exact hlt
      · exact tr a b c hlt (h.1 c hc)

/-- **C146**, sites: the first site is the lowest point (the leftmost of these), and the others follow in the order of the sweep. -/
theorem C146_sites (ps : List (P ℝ)) : InOrder (siteList ps) := by
  unfold siteList
  generalize ps.zipIdx.map (fun (p, i) => (⟨p.x, p.y, i⟩ : Site ℝ)) = l
  induction l with
  | nil => exact List.Pairwise.nil
  | cons a l ih => exact insertBy_inOrder a _ ih

theorem reach_inv {env : Env ℝ} {bottom : Site ℝ} {sites0 sites : List (Site ℝ)} {s : State ℝ} (hb : env.bottom = bottom) (hd : 0 ≤ env.deltay) (hp : 0 < env.hashsize)
    (h : Reach env sites0 sites s) : sites <:+ sites0 ∧ ∃ k, Inv env (bottom :: sites0) k s := by
  induction h with
  | start => exact ⟨List.suffix_rfl, 0, init_inv _ _ hp⟩
  | step _ ht ih =>
    obtain ⟨h1, k, h2⟩ := ih
    obtain ⟨h3, h4⟩ := turn_order (S := bottom :: sites0) (by rw [hb]; simp) hd (fun p hp => List.mem_cons_of_mem _ (h1.subset hp)) h2 ht
    refine ⟨?_, h3⟩
    rcases h4 with ⟨p, e, -⟩ | ⟨e, -⟩
    · exact (List.suffix_cons p _).trans (e ▸ h1)
    · rw [e]; exact h1

theorem foldl_pmin_le (p : ℝ) (l : List (P ℝ)) : l.foldl (fun m q => pmin q.y m) p ≤ p := by
  induction l generalizing p with
  | nil => exact le_rfl
  | cons a l ih =>
    rw [List.foldl_cons]
    refine le_trans (ih _) ?_
    unfold pmin
    simp only [real_lt, decide_eq_true_eq]
    split_ifs with h
    · exact le_rfl
    · exact not_lt.1 h

theorem le_foldl_pmax (p : ℝ) (l : List (P ℝ)) : p ≤ l.foldl (fun m q => pmax q.y m) p := by
  induction l generalizing p with
  | nil => exact le_rfl
  | cons a l ih =>
    rw [List.foldl_cons]
    refine le_trans ?_ (ih _)
    unfold pmax
    simp only [real_lt, decide_eq_true_eq]
    split_ifs with h
    · exact le_rfl
    · exact not_lt.1 h

/-- **C146**, events: each turn of the main loop either handles the next site, and then the site comes before every vertex that waits; or it handles a vertex that waits, adding it to the diagram,
and then none of the vertices that wait and none of the sites that are left comes before it. -/
theorem C146_events (p : P ℝ) (ps : List (P ℝ)) (bottom : Site ℝ) (sites0 : List (Site ℝ)) (h0 : siteList (p :: ps) = bottom :: sites0) (sites sites' : List (Site ℝ)) (s s' : State ℝ)
    (hr : Reach (envOf p ps bottom) sites0 sites s) (h : turn (envOf p ps bottom) sites s = .ok (.go sites' s')) :
    (∃ q, sites = q :: sites' ∧ s'.vertices = s.vertices ∧ (∀ v due, Waits s v due → Before q.x q.y v.x due) ∧ ∀ r ∈ sites', ¬ Before r.x r.y q.x q.y) ∨
    (sites' = sites ∧ ∃ v due, Waits s v due ∧ s'.vertices = s.vertices ++ [v] ∧ (∀ v' due', Waits s v' due' → ¬ Before v'.x due' v.x due) ∧
      ∀ r ∈ sites, ¬ Before r.x r.y v.x due) := by
  have hd : 0 ≤ (envOf p ps bottom).deltay := by
    unfold envOf
    dsimp only
    rw [real_sub, sub_nonneg]
    exact le_trans (foldl_pmin_le _ _) (le_foldl_pmax _ _)
  have hpos : 0 < (envOf p ps bottom).hashsize := by
    unfold envOf
    dsimp only
    rw [isqrt_eq, Nat.sqrt_pos]; omega
  obtain ⟨h1, k, h2⟩ := reach_inv (bottom := bottom) rfl hd hpos hr
  have hord : InOrder sites := by
    have := C146_sites (p :: ps)
    rw [h0] at this
    exact (List.pairwise_cons.1 this).2.sublist h1.sublist
  obtain ⟨-, h4⟩ := turn_order (S := bottom :: sites0) (by unfold envOf; simp) hd (fun p hp => List.mem_cons_of_mem _ (h1.subset hp)) h2 h
  rcases h4 with ⟨q, e, h5, h6⟩ | ⟨e, v, due, h5, h6, h7, h8⟩
  · refine .inl ⟨q, e, h5, h6, ?_⟩
    rw [e] at hord
    exact (List.pairwise_cons.1 hord).1
  · refine .inr ⟨e, v, due, h5, h6, h7, ?_⟩
    intro r hr hb
    cases hs : sites with
    | nil => rw [hs] at hr; simp at hr
    | cons q rest =>
      have hq := h8 q (by rw [hs]; simp)
      rw [hs] at hr hord
      rcases List.mem_cons.1 hr with rfl | hr
      · exact hq hb
      · have hqr := (List.pairwise_cons.1 hord).1 r hr
        unfold Before at *
        push Not at hq hqr
        rcases hb with hb | ⟨hb, hb'⟩
        · linarith [hqr.1, hq.1]
        · have e1 : r.y = q.y := le_antisymm (by rw [hb]; exact hq.1) hqr.1
          have := hqr.2 e1
          have := hq.2 (by rw [← e1, hb])
          linarith

/-- The start of a sweep is such a state. -/
example : ∃ bottom sites, siteList [(⟨0, 0⟩ : P ℝ), ⟨2, 1⟩] = bottom :: sites ∧ Reach (envOf ⟨0, 0⟩ [⟨2, 1⟩] bottom) sites sites (State.init (envOf ⟨0, 0⟩ [⟨2, 1⟩] bottom).hashsize) := by
  cases h : siteList [(⟨0, 0⟩ : P ℝ), ⟨2, 1⟩] with
  | nil => have := siteList_length [(⟨0, 0⟩ : P ℝ), ⟨2, 1⟩]; rw [h] at this; simp at this
  | cons b l => exact ⟨b, l, rfl, Reach.start⟩

end Verif.Voronoi
