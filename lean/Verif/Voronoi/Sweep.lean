import Verif.Voronoi.Queue

/-!
# Invariants of the sweep (lemmas)

Nothing here depends on the arithmetic.
-/

set_option linter.unusedSectionVars false

namespace Verif.Voronoi
open Verif PyFloat PyTrig Geom

section
variable {K : Type} [PyTrig K]

/-- The only exception is a division by zero. -/
def OnlyZero {α : Type} (x : Except PyErr α) : Prop := ∀ e, x = .error e → e = .zeroDivision

theorem OnlyZero.ok {α : Type} (a : α) : OnlyZero (.ok a) := by intro e h; cases h

theorem OnlyZero.bind {α β : Type} {x : Except PyErr α} {f : α → Except PyErr β} (hx : OnlyZero x) (hf : ∀ a, x = .ok a → OnlyZero (f a)) : OnlyZero (x >>= f) := by
  intro e h
  cases x with
  | error e' =>
    have : e' = e := by cases h; rfl
    rw [← this]; exact hx e' rfl
  | ok a => exact hf a rfl e h

theorem OnlyZero.cases {α : Type} {x : Except PyErr α} (h : OnlyZero x) : x = .error .zeroDivision ∨ ∃ a, x = .ok a := by
  cases x with
  | error e => rw [h e rfl]; exact .inl rfl
  | ok a => exact .inr ⟨a, rfl⟩

theorem pdiv_onlyZero (a b : K) : OnlyZero (pdiv a b) := by
  intro e h
  unfold pdiv at h
  split at h
  · cases h; rfl
  · cases h

theorem mkEdge_onlyZero (n : Nat) (a b : Site K) : OnlyZero (mkEdge n a b) := by
  unfold mkEdge
  split
  · exact (pdiv_onlyZero _ _).bind fun _ _ => (pdiv_onlyZero _ _).bind fun _ _ => .ok _
  · exact (pdiv_onlyZero _ _).bind fun _ _ => (pdiv_onlyZero _ _).bind fun _ _ => .ok _

theorem mkEdge_num {n : Nat} {a b : Site K} {e : Edge K} (h : mkEdge n a b = .ok e) : e.num = n ∧ e.s1 = a ∧ e.s2 = b := by
  unfold mkEdge at h
  split at h
  · cases h1 : pdiv (b.y -. a.y) (b.x -. a.x) with
    | error => rw [h1] at h; cases h
    | ok u =>
      cases h2 : pdiv (bisectorConst a b) (b.x -. a.x) with
      | error => rw [h1, h2] at h; cases h
      | ok v => rw [h1, h2] at h; cases h; exact ⟨rfl, rfl, rfl⟩
  · cases h1 : pdiv (b.x -. a.x) (b.y -. a.y) with
    | error => rw [h1] at h; cases h
    | ok u =>
      cases h2 : pdiv (bisectorConst a b) (b.y -. a.y) with
      | error => rw [h1, h2] at h; cases h
      | ok v => rw [h1, h2] at h; cases h; exact ⟨rfl, rfl, rfl⟩

theorem aboveSlow_onlyZero (e : Edge K) (x y : K) : OnlyZero (aboveSlow e x y) := (pdiv_onlyZero _ _).bind fun _ _ => .ok _

theorem aboveSteep_onlyZero (e : Edge K) (r : Bool) (x y : K) : OnlyZero (aboveSteep e r x y) := by
  unfold aboveSteep
  split
  · split
    · exact .ok _
    · exact aboveSlow_onlyZero _ _ _
  · dsimp only
    generalize (if (e.b <. zero) = true then _ else _ : Bool) = a
    cases a
    · exact .ok _
    · exact aboveSlow_onlyZero _ _ _

theorem isLeftOf_onlyZero (h : Half K) (p : Site K) : OnlyZero (isLeftOf h p) := by
  unfold isLeftOf
  dsimp only
  split
  · exact .ok _
  · split
    · exact .ok _
    · split
      · exact (aboveSteep_onlyZero _ _ _ _).bind fun _ _ => .ok _
      · exact (OnlyZero.ok _).bind fun _ _ => .ok _

theorem leftCount_onlyZero (p : Site K) (l : List (Half K)) : OnlyZero (leftCount p l) := by
  induction l with
  | nil => exact .ok _
  | cons h l ih =>
    unfold leftCount
    refine (isLeftOf_onlyZero h p).bind fun b _ => ?_
    split
    · exact ih.bind fun _ _ => .ok _
    · exact .ok _

theorem intersectHalf_onlyZero (a b : Half K) : OnlyZero (intersectHalf a b) := by
  unfold intersectHalf
  split
  · exact .ok _
  · dsimp only
    split
    · exact .ok _
    · exact (pdiv_onlyZero _ _).bind fun _ _ => (pdiv_onlyZero _ _).bind fun _ _ => .ok _

theorem intersect_onlyZero (a b : Option (Half K)) : OnlyZero (intersect a b) := by
  unfold intersect
  split
  · exact intersectHalf_onlyZero _ _
  · exact .ok _

/-! ## Which half edges wait -/

/-- The half edges that wait for an event are on the beach line and have a right neighbour. -/
structure Wait (env : Env K) (s : State K) : Prop where
  q : QInv env s
  ids : (s.beach.map Half.id).Nodup
  lt : ∀ h ∈ s.beach, h.id < s.nextId
  queued : ∀ k, inQ s k → ∃ h ∈ s.beach.dropLast, h.id = k
  waiting : ∀ h ∈ s.beach, s.ev h.id ≠ none → inQ s h.id
  fresh : ∀ k, s.nextId ≤ k → s.ev k = none

theorem push_wait {env : Env K} {s : State K} (hw : Wait env s) {h : Half K} (hb : h ∈ s.beach.dropLast)
    (hn : ¬ inQ s h.id) (v : P K) (off : K) :
    s.push env h.id v off = .error .zeroDivision ∨
      ∃ s', s.push env h.id v off = .ok s' ∧ Wait env s' ∧ SameRest s s' ∧ s'.ev = Function.update s.ev h.id (some (v, v.y +. off)) ∧
        ∀ k, inQ s' k ↔ k = h.id ∨ inQ s k := by
  rcases push_spec hw.q h.id hn v off with e | ⟨s', e, hq, hr, hev, hin⟩
  · exact .inl e
  · refine .inr ⟨s', e, ⟨hq, by rw [hr.beach]; exact hw.ids, by rw [hr.beach, hr.nextId]; exact hw.lt, ?_, ?_, ?_⟩, hr, hev, hin⟩
    · intro k hk
      rw [hr.beach]
      rcases (hin k).1 hk with rfl | hk
      · exact ⟨h, hb, rfl⟩
      · exact hw.queued k hk
    · intro k hk hne
      rw [hr.beach] at hk
      rw [hin]
      by_cases e : k.id = h.id
      · exact .inl e
      · rw [hev, Function.update_of_ne e] at hne
        exact .inr (hw.waiting k hk hne)
    · intro k hk
      rw [hr.nextId] at hk
      have hh : h.id < s.nextId := hw.lt h (List.mem_of_mem_dropLast hb)
      rw [hev, Function.update_of_ne (by omega)]
      exact hw.fresh k hk

theorem repush_wait {env : Env K} {s : State K} (hw : Wait env s) (lb : Option (Half K)) (w : Option (P K)) (fx fy : K)
    (hb : ∀ h, lb = some h → h ∈ s.beach.dropLast) :
    s.repush env lb w fx fy = .error .zeroDivision ∨
      ∃ s', s.repush env lb w fx fy = .ok s' ∧ Wait env s' ∧ SameRest s s' ∧
        (∀ k x, s'.ev k = some x → s.ev k = some x ∨ ∃ v, w = some v ∧ x.1 = v ∧ ∃ h, lb = some h) ∧
        ∀ k, inQ s' k → inQ s k ∨ ∃ h, lb = some h ∧ k = h.id := by
  unfold State.repush
  split
  · rename_i h v
    have hb := hb h rfl
    have hmem : h ∈ s.beach := List.mem_of_mem_dropLast hb
    obtain ⟨t, e1, hq, hr, hev, hin⟩ := drop_spec hw.q h.id (hw.waiting h hmem)
    have ht : Wait env t := by
      refine ⟨hq, by rw [hr.beach]; exact hw.ids, by rw [hr.beach, hr.nextId]; exact hw.lt, ?_, ?_, ?_⟩
      · intro k hk
        rw [hr.beach]
        exact hw.queued k ((hin k).1 hk).1
      · intro k hk hne
        rw [hr.beach] at hk
        rw [hev] at hne
        by_cases e : k.id = h.id
        · rw [e, Function.update_self] at hne; exact absurd rfl hne
        · rw [Function.update_of_ne e] at hne
          exact (hin _).2 ⟨hw.waiting k hk hne, e⟩
      · intro k hk
        rw [hr.nextId] at hk
        rw [hev]
        by_cases e : k = h.id
        · rw [e, Function.update_self]
        · rw [Function.update_of_ne e]; exact hw.fresh k hk
    rw [e1]
    rcases push_wait ht (by rw [hr.beach]; exact hb) (fun h' => ((hin _).1 h').2 rfl) v (hypot (fx -. v.x) (fy -. v.y)) with e | ⟨s', e, hw', hr', hev', hin'⟩
    · exact .inl e
    · refine .inr ⟨s', e, hw', hr.trans hr', ?_, fun k hk => ((hin' k).1 hk).elim (fun e => .inr ⟨h, rfl, e⟩) fun hk => .inl ((hin k).1 hk).1⟩
      intro k x hx
      rw [hev', hev] at hx
      by_cases ek : k = h.id
      · rw [ek, Function.update_self] at hx
        cases hx
        exact .inr ⟨v, rfl, rfl, h, rfl⟩
      · rw [Function.update_of_ne ek, Function.update_of_ne ek] at hx
        exact .inl hx
  · exact .inr ⟨s, rfl, hw, SameRest.refl s, fun k x hx => .inl hx, fun k hk => .inl hk⟩

theorem pushNew_wait {env : Env K} {s : State K} (hw : Wait env s) (h : Half K) (w : Option (P K)) (fx fy : K)
    (hb : ∀ v, w = some v → h ∈ s.beach.dropLast) (hn : ¬ inQ s h.id) :
    s.pushNew env h w fx fy = .error .zeroDivision ∨
      ∃ s', s.pushNew env h w fx fy = .ok s' ∧ Wait env s' ∧ SameRest s s' ∧
        ∀ k x, s'.ev k = some x → s.ev k = some x ∨ ∃ v, w = some v ∧ x.1 = v := by
  unfold State.pushNew
  split
  · rename_i v
    have hb := hb v rfl
    rcases push_wait hw hb hn v (hypot (fx -. v.x) (fy -. v.y)) with e | ⟨s', e, hw', hr', hev', -⟩
    · exact .inl e
    · refine .inr ⟨s', e, hw', hr', ?_⟩
      intro k x hx
      rw [hev'] at hx
      by_cases ek : k = h.id
      · rw [ek, Function.update_self] at hx
        cases hx
        exact .inr ⟨v, rfl, rfl⟩
      · rw [Function.update_of_ne ek] at hx
        exact .inl hx
  · exact .inr ⟨s, rfl, hw, SameRest.refl s, fun k x hx => .inl hx⟩

/-! ## Where the edges are -/

/-- One of the end points. -/
def endAt (x : Option (P K) × Option (P K)) (right : Bool) : Option (P K) := if right then x.2 else x.1

/-- Each side of an edge is on the beach line or has an end point, not both; edges with both end points are output, once. -/
structure Book (beach : List (Half K)) (s : State K) : Prop where
  nums : ∀ (i : Nat) (e : Edge K), s.made[i]? = some e → e.num = i
  onm : ∀ h ∈ beach, s.made[h.edge.num]? = some h.edge
  half : ∀ n < s.made.length, ∀ b, beach.countP (fun h => decide (h.edge.num = n) && h.rightward == b) = if (endAt (s.ends n) b).isSome then 0 else 1
  outc : ∀ n < s.made.length, s.out.countP (fun x => decide (x.1.num = n)) = if (s.ends n).1.isSome && (s.ends n).2.isSome then 1 else 0
  outm : ∀ x ∈ s.out, s.made[x.1.num]? = some x.1 ∧ x.2 = s.ends x.1.num
  endv : ∀ n b v, endAt (s.ends n) b = some v → v ∈ s.vertices
  new : ∀ n, s.made.length ≤ n → s.ends n = (none, none)

theorem Book.congr {beach : List (Half K)} {s t : State K} (h : Book beach s) (hm : t.made = s.made) (he : t.ends = s.ends) (ho : t.out = s.out)
    (hv : ∀ v ∈ s.vertices, v ∈ t.vertices) : Book beach t :=
  ⟨by rw [hm]; exact h.nums, by rw [hm]; exact h.onm, by rw [hm, he]; exact h.half, by rw [hm, he, ho]; exact h.outc, by rw [hm, he, ho]; exact h.outm,
    fun n b v hx => hv v (h.endv n b v (by rw [← he]; exact hx)), by rw [hm, he]; exact h.new⟩

theorem book_setEnd {pre post : List (Half K)} {h : Half K} {s : State K} (hb : Book (pre ++ h :: post) s) {v : P K} (hv : v ∈ s.vertices) :
    Book (pre ++ post) (s.setEnd h.edge h.rightward v) ∧ (s.setEnd h.edge h.rightward v).made = s.made := by
  have hm := hb.onm h (by simp)
  have hlt : h.edge.num < s.made.length := (List.getElem?_eq_some_iff.1 hm).1
  have hc : ∀ n b, (pre ++ h :: post).countP (fun k => decide (k.edge.num = n) && k.rightward == b) =
      (pre ++ post).countP (fun k => decide (k.edge.num = n) && k.rightward == b) + if (h.edge.num = n ∧ h.rightward = b) then 1 else 0 := by
    intro n b
    simp only [List.countP_append, List.countP_cons, Bool.and_eq_true, decide_eq_true_eq, beq_iff_eq]
    omega
  have hunset : (endAt (s.ends h.edge.num) h.rightward).isSome = false := by
    have h1 := hb.half h.edge.num hlt h.rightward
    rw [hc, if_pos ⟨rfl, rfl⟩] at h1
    by_contra h2
    rw [if_pos (by rw [Bool.not_eq_false] at h2; exact h2)] at h1
    omega
  have key : ∀ (t : State K), t.made = s.made → t.vertices = s.vertices →
      t.ends = Function.update s.ends h.edge.num (if h.rightward then ((s.ends h.edge.num).1, some v) else (some v, (s.ends h.edge.num).2)) →
      t.out = s.out ++ (if (if h.rightward then (s.ends h.edge.num).1 else (s.ends h.edge.num).2).isSome then
        [(h.edge, if h.rightward then ((s.ends h.edge.num).1, some v) else (some v, (s.ends h.edge.num).2))] else []) → Book (pre ++ post) t := by
    intro t tm tv te tout
    refine ⟨by rw [tm]; exact hb.nums, ?_, ?_, ?_, ?_, ?_, ?_⟩
    · intro k hk
      rw [tm]
      apply hb.onm
      rcases List.mem_append.1 hk with hk | hk
      · exact List.mem_append_left _ hk
      · exact List.mem_append_right _ (List.mem_cons_of_mem _ hk)
    · intro n hn b
      rw [tm] at hn
      have h1 := hb.half n hn b
      rw [hc] at h1
      rw [te]
      by_cases en : n = h.edge.num
      · subst en
        rw [Function.update_self]
        by_cases eb : h.rightward = b
        · subst eb
          rw [if_pos ⟨rfl, rfl⟩] at h1
          rw [hunset] at h1
          simp only [Bool.false_eq_true, if_false] at h1
          have : (endAt (if h.rightward = true then ((s.ends h.edge.num).1, some v) else (some v, (s.ends h.edge.num).2)) h.rightward).isSome = true := by
            unfold endAt; cases h.rightward <;> rfl
          rw [this]
          simp only [if_true]
          omega
        · rw [if_neg (fun x => eb x.2)] at h1
          have : endAt (if h.rightward = true then ((s.ends h.edge.num).1, some v) else (some v, (s.ends h.edge.num).2)) b = endAt (s.ends h.edge.num) b := by
            unfold endAt
            revert eb
            cases h.rightward <;> cases b <;> simp
          rw [this]
          omega
      · rw [Function.update_of_ne en]
        rw [if_neg (fun x => en x.1.symm)] at h1
        omega
    · intro n hn
      rw [tm] at hn
      have h1 := hb.outc n hn
      rw [te, tout, List.countP_append, h1]
      by_cases en : n = h.edge.num
      · subst en
        rw [Function.update_self]
        revert hunset
        unfold endAt
        cases h.rightward <;> cases hx : (s.ends h.edge.num).1 <;> cases hy : (s.ends h.edge.num).2 <;> simp
      · rw [Function.update_of_ne en]
        have : ∀ l : List (Edge K × Option (P K) × Option (P K)), (∀ x ∈ l, x.1 = h.edge) → l.countP (fun x => decide (x.1.num = n)) = 0 := by
          intro l hl
          rw [List.countP_eq_zero]
          intro x hx
          rw [hl x hx]
          simpa using fun e => en e.symm
        rw [this]
        · simp
        · intro x hx
          by_cases hcnd : (if h.rightward = true then (s.ends h.edge.num).1 else (s.ends h.edge.num).2).isSome = true
          · rw [if_pos hcnd, List.mem_singleton] at hx; rw [hx]
          · rw [if_neg hcnd] at hx; simp at hx
    · intro x hx
      rw [tout] at hx
      rw [tm, te]
      rcases List.mem_append.1 hx with hx | hx
      · obtain ⟨h1, h2⟩ := hb.outm x hx
        refine ⟨h1, ?_⟩
        rw [Function.update_of_ne]
        · exact h2
        · intro e
          have h3 := hb.outc h.edge.num hlt
          have h4 : 0 < s.out.countP (fun x => decide (x.1.num = h.edge.num)) := List.countP_pos_iff.2 ⟨x, hx, by simpa using e⟩
          rw [h3] at h4
          revert hunset h4
          unfold endAt
          cases h.rightward <;> cases hx : (s.ends h.edge.num).1 <;> cases hy : (s.ends h.edge.num).2 <;> simp
      · by_cases hcnd : (if h.rightward = true then (s.ends h.edge.num).1 else (s.ends h.edge.num).2).isSome = true
        · rw [if_pos hcnd, List.mem_singleton] at hx
          rw [hx]
          exact ⟨hm, by dsimp only; rw [Function.update_self]⟩
        · rw [if_neg hcnd] at hx; simp at hx
    · intro n b w hw
      rw [te] at hw
      rw [tv]
      by_cases en : n = h.edge.num
      · subst en
        rw [Function.update_self] at hw
        have := hb.endv h.edge.num
        unfold endAt at hw this
        cases hr : h.rightward <;> cases b <;> rw [hr] at hw <;> simp at hw
        · rw [← hw]; exact hv
        · exact this true w (by simpa using hw)
        · exact this false w (by simpa using hw)
        · rw [← hw]; exact hv
      · rw [Function.update_of_ne en] at hw
        exact hb.endv n b w hw
    · intro n hn
      rw [tm] at hn
      rw [te, Function.update_of_ne (by omega)]
      exact hb.new n hn
  unfold State.setEnd
  dsimp only
  by_cases hs : (if h.rightward = true then (s.ends h.edge.num).1 else (s.ends h.edge.num).2).isSome = true
  · rw [if_pos hs]
    exact ⟨key _ rfl rfl rfl (by rw [if_pos hs]), rfl⟩
  · rw [if_neg hs]
    exact ⟨key _ rfl rfl rfl (by rw [if_neg hs]; simp), rfl⟩

theorem book_add {pre post : List (Half K)} {s : State K} (hb : Book (pre ++ post) s) {e : Edge K} (he : e.num = s.made.length) {t : State K}
    (hm : t.made = s.made ++ [e]) (hen : t.ends = s.ends) (ho : t.out = s.out) (hv : t.vertices = s.vertices) (i j : Nat) (b : Bool) :
    Book (pre ++ ⟨i, e, b⟩ :: ⟨j, e, !b⟩ :: post) t := by
  have hc : ∀ n c, (pre ++ ⟨i, e, b⟩ :: ⟨j, e, !b⟩ :: post).countP (fun k => decide (k.edge.num = n) && k.rightward == c) =
      (pre ++ post).countP (fun k => decide (k.edge.num = n) && k.rightward == c) + if e.num = n then 1 else 0 := by
    intro n c
    simp only [List.countP_append, List.countP_cons, Bool.and_eq_true, decide_eq_true_eq, beq_iff_eq]
    by_cases h : e.num = n
    · cases b <;> cases c <;> simp [h]; all_goals omega
    · simp [h]
  have hfresh : ∀ k ∈ pre ++ post, k.edge.num < s.made.length := fun k hk => (List.getElem?_eq_some_iff.1 (hb.onm k hk)).1
  refine ⟨?_, ?_, ?_, ?_, ?_, ?_, ?_⟩
  · intro n f hf
    rw [hm] at hf
    rcases Nat.lt_or_ge n s.made.length with h | h
    · rw [List.getElem?_append_left h] at hf
      exact hb.nums n f hf
    · rw [List.getElem?_append_right h] at hf
      have h1 : n - s.made.length = 0 := by
        have := (List.getElem?_eq_some_iff.1 hf).1
        simpa using this
      rw [h1] at hf
      simp at hf
      rw [← hf, he]; omega
  · intro k hk
    rw [hm]
    rcases List.mem_append.1 hk with hk | hk
    · rw [List.getElem?_append_left (hfresh k (List.mem_append_left _ hk))]
      exact hb.onm k (List.mem_append_left _ hk)
    · rcases List.mem_cons.1 hk with rfl | hk
      · dsimp only; rw [he]; simp
      · rcases List.mem_cons.1 hk with rfl | hk
        · dsimp only; rw [he]; simp
        · rw [List.getElem?_append_left (hfresh k (List.mem_append_right _ hk))]
          exact hb.onm k (List.mem_append_right _ hk)
  · intro n hn c
    rw [hm] at hn
    simp only [List.length_append, List.length_cons, List.length_nil] at hn
    rw [hc, hen]
    rcases Nat.lt_or_ge n s.made.length with h | h
    · rw [hb.half n h c, if_neg (show ¬ e.num = n by omega)]; rfl
    · have hn' : n = s.made.length := by omega
      rw [if_pos (show e.num = n by omega), hb.new n h]
      have : (pre ++ post).countP (fun k => decide (k.edge.num = n) && k.rightward == c) = 0 := by
        rw [List.countP_eq_zero]
        intro k hk
        have := hfresh k hk
        have hne : ¬ k.edge.num = n := by omega
        simp [hne]
      rw [this]
      cases c <;> rfl
  · intro n hn
    rw [hm] at hn
    simp only [List.length_append, List.length_cons, List.length_nil] at hn
    rw [ho, hen]
    rcases Nat.lt_or_ge n s.made.length with h | h
    · exact hb.outc n h
    · rw [hb.new n h, List.countP_eq_zero.2]
      · rfl
      · intro x hx
        have := (List.getElem?_eq_some_iff.1 (hb.outm x hx).1).1
        have hne : ¬ x.1.num = n := by omega
        simp [hne]
  · intro x hx
    rw [ho] at hx
    obtain ⟨h1, h2⟩ := hb.outm x hx
    rw [hm, hen]
    exact ⟨by rw [List.getElem?_append_left (List.getElem?_eq_some_iff.1 h1).1]; exact h1, h2⟩
  · rw [hen, hv]; exact hb.endv
  · intro n hn
    rw [hm] at hn
    rw [hen]
    exact hb.new n (by simp at hn; omega)

/-! ## The events -/

/-- The sites left and right of neighbours agree. -/
structure Chain (bottom : Site K) (beach : List (Half K)) : Prop where
  mid : beach.IsChain fun h k => h.rightSite = k.leftSite
  first : ∀ h ∈ beach.head?, h.leftSite = bottom
  last : ∀ h ∈ beach.getLast?, h.rightSite = bottom

/-- An edge was made from two of the sites. -/
def Good (S : List (Site K)) (e : Edge K) : Prop := mkEdge e.num e.s1 e.s2 = .ok e ∧ e.s1 ∈ S ∧ e.s2 ∈ S

/-- A point was found as the intersection of two half edges with a site between them. -/
def Met (S : List (Site K)) (v : P K) : Prop :=
  ∃ h1 h2 : Half K, intersectHalf h1 h2 = .ok (some v) ∧ h1.rightSite = h2.leftSite ∧ Good S h1.edge ∧ Good S h2.edge

theorem around_spec (k : Nat) : ∀ (L pre : List (Half K)), (∃ h ∈ L.dropLast, h.id = k) →
    ∃ p l r q, around k pre L = some (pre ++ p, l, r, q) ∧ L = p ++ l :: r :: q ∧ l.id = k
  | [], _, h => by obtain ⟨h, hm, -⟩ := h; simp at hm
  | [_], _, h => by obtain ⟨h, hm, -⟩ := h; simp at hm
  | l :: r :: post, pre, h => by
    unfold around
    by_cases e : l.id = k
    · rw [if_pos e]
      exact ⟨[], l, r, post, by simp, rfl, e⟩
    · rw [if_neg e]
      obtain ⟨h, hm, hid⟩ := h
      rw [List.dropLast_cons_cons, List.mem_cons] at hm
      have hm := hm.resolve_left (by rintro rfl; exact e hid)
      obtain ⟨p, l', r', q, h1, h2, h3⟩ := around_spec k (r :: post) (pre ++ [l]) ⟨h, hm, hid⟩
      exact ⟨l :: p, l', r', q, by rw [h1]; simp, by rw [h2]; rfl, h3⟩

/-- All that is known during the sweep, after `k` sites (not counting the first one). -/
structure Inv (env : Env K) (S : List (Site K)) (k : Nat) (s : State K) : Prop where
  wait : Wait env s
  book : Book s.beach s
  chain : Chain env.bottom s.beach
  good : ∀ e ∈ s.made, Good S e
  evs : ∀ i x, s.ev i = some x → Met S x.1
  verts : ∀ v ∈ s.vertices, Met S v
  tri : s.tris.length = s.vertices.length
  triS : ∀ t ∈ s.tris, t.1 ∈ S ∧ t.2.1 ∈ S ∧ t.2.2 ∈ S
  nm : s.made.length = k + s.vertices.length
  nb : s.beach.length + s.vertices.length = 2 * k

theorem Good.right {S : List (Site K)} {h : Half K} (g : Good S h.edge) : h.rightSite ∈ S := by
  unfold Half.rightSite; split; exact g.2.1; exact g.2.2

theorem Good.left {S : List (Site K)} {h : Half K} (g : Good S h.edge) : h.leftSite ∈ S := by
  unfold Half.leftSite; split; exact g.2.2; exact g.2.1

theorem intersect_met {S : List (Site K)} {a b : Option (Half K)} (hg : ∀ h, a = some h ∨ b = some h → Good S h.edge)
    (hc : ∀ h k, a = some h → b = some k → h.rightSite = k.leftSite) {v : P K} (h : intersect a b = .ok (some v)) : Met S v := by
  unfold intersect at h
  split at h
  · rename_i x y
    exact ⟨x, y, h, hc x y rfl rfl, hg x (.inl rfl), hg y (.inr rfl)⟩
  · cases h

theorem Inv.goodB {env : Env K} {S : List (Site K)} {k : Nat} {s : State K} (hi : Inv env S k s) {h : Half K} (hm : h ∈ s.beach) : Good S h.edge :=
  hi.good _ (List.mem_of_getElem? (hi.book.onm h hm))

theorem siteEvent_inv {env : Env K} {S : List (Site K)} {k : Nat} {s : State K} (hi : Inv env S k s) (hbot : env.bottom ∈ S) {p : Site K} (hp : p ∈ S) :
    s.siteEvent env p = .error .zeroDivision ∨ ∃ s', s.siteEvent env p = .ok s' ∧ Inv env S (k + 1) s' ∧ s'.vertices = s.vertices := by
  unfold State.siteEvent
  rcases (pdiv_onlyZero (p.x -. env.xmin) env.hashscale).cases with e0 | ⟨z, e0⟩
  · left; rw [e0]; rfl
  rcases (leftCount_onlyZero p s.beach).cases with e1 | ⟨n, e1⟩
  · left; rw [e0, e1]; rfl
  rw [e0, e1]
  simp only [bind, Except.bind]
  generalize hA : s.beach.take n = A
  generalize hB : s.beach.drop n = B
  have hAB : s.beach = A ++ B := by rw [← hA, ← hB, List.take_append_drop]
  rcases (mkEdge_onlyZero s.made.length (rightSiteOf env.bottom A.getLast?) p).cases with e2 | ⟨e, e2⟩
  · left; rw [e2]
  rw [e2]
  dsimp only
  obtain ⟨en, es1, es2⟩ := mkEdge_num e2
  have hge : Good S e := by
    refine ⟨by rw [en, es1, es2]; exact e2, ?_, by rw [es2]; exact hp⟩
    rw [es1]
    cases hl : A.getLast? with
    | none => exact hbot
    | some h => exact (hi.goodB (by rw [hAB]; exact List.mem_append_left _ (List.mem_of_getLast? hl))).right
  generalize hl : (⟨s.nextId, e, false⟩ : Half K) = l
  generalize hr : (⟨s.nextId + 1, e, true⟩ : Half K) = r
  have lid : l.id = s.nextId := by rw [← hl]
  have rid : r.id = s.nextId + 1 := by rw [← hr]
  have ledge : l.edge = e := by rw [← hl]
  have redge : r.edge = e := by rw [← hr]
  have lleft : l.leftSite = rightSiteOf env.bottom A.getLast? := by rw [← hl, ← es1]; rfl
  have lright : l.rightSite = p := by rw [← hl, ← es2]; rfl
  have rleft : r.leftSite = p := by rw [← hr, ← es2]; rfl
  have rright : r.rightSite = rightSiteOf env.bottom A.getLast? := by rw [← hr, ← es1]; rfl
  generalize ht : ({ s with beach := A ++ l :: r :: B, nextId := s.nextId + 2, made := s.made ++ [e] } : State K) = t
  have tb : t.beach = A ++ l :: r :: B := by rw [← ht]
  have tq : ∀ j, inQ t j ↔ inQ s j := by intro j; rw [← ht]; rfl
  have tev : t.ev = s.ev := by rw [← ht]
  have memB : ∀ h, h ∈ A ∨ h ∈ B → h ∈ s.beach := by intro h hh; rw [hAB]; exact List.mem_append.2 hh
  -- the chain
  have hmid := hi.chain.mid
  rw [hAB, List.isChain_append] at hmid
  have hchain : Chain env.bottom t.beach := by
    rw [tb]
    refine ⟨?_, ?_, ?_⟩
    · rw [List.isChain_append]
      refine ⟨hmid.1, ?_, ?_⟩
      · rw [List.isChain_cons_cons]
        refine ⟨by rw [lright, rleft], ?_⟩
        rw [List.isChain_cons]
        refine ⟨?_, hmid.2.1⟩
        intro y hy
        rw [rright]
        cases hlast : A.getLast? with
        | some x => exact hmid.2.2 x hlast y hy
        | none =>
          rw [List.getLast?_eq_none_iff] at hlast
          have := hi.chain.first y (by rw [hAB, hlast]; exact hy)
          exact this.symm
      · intro x hx y hy
        simp at hy
        rw [← hy, lleft, Option.mem_def.1 hx]
        rfl
    · intro h hh
      cases A with
      | nil =>
        simp at hh
        rw [← hh, lleft]
        rfl
      | cons a A =>
        refine hi.chain.first h ?_
        rw [hAB]
        simpa using hh
    · intro h hh
      cases hB' : B.getLast? with
      | some x =>
        refine hi.chain.last h ?_
        rw [hAB]
        simp only [List.getLast?_append, List.getLast?_cons, hB'] at hh ⊢
        simpa using hh
      | none =>
        rw [List.getLast?_eq_none_iff] at hB'
        simp [hB', List.getLast?_append] at hh
        rw [← hh, rright]
        cases hlast : A.getLast? with
        | none => rfl
        | some x => exact hi.chain.last x (by rw [hAB, hB']; simpa using hlast)
  have hbook : Book t.beach t := by
    rw [tb, ← hl, ← hr]
    exact book_add (by rw [← hAB]; exact hi.book) en (by rw [← ht]) (by rw [← ht]) (by rw [← ht]) (by rw [← ht]) s.nextId (s.nextId + 1) false
  have hdl : ∀ h, h ∈ s.beach.dropLast → h ∈ t.beach.dropLast := by
    intro h hh
    rw [tb]
    rw [hAB] at hh
    cases B with
    | nil =>
      rw [List.append_nil] at hh
      rw [List.dropLast_append_of_ne_nil (by simp)]
      exact List.mem_append_left _ (List.mem_of_mem_dropLast hh)
    | cons b B =>
      rw [List.dropLast_append_of_ne_nil (by simp)] at hh ⊢
      rcases List.mem_append.1 hh with hh | hh
      · exact List.mem_append_left _ hh
      · exact List.mem_append_right _ (by
          rw [List.dropLast_cons_cons, List.dropLast_cons_cons]
          exact List.mem_cons_of_mem _ (List.mem_cons_of_mem _ hh))
  have hwait : Wait env t := by
    refine ⟨?_, ?_, ?_, ?_, ?_, ?_⟩
    · rw [← ht]
      exact ⟨hi.wait.q.size, hi.wait.q.pos, hi.wait.q.loc, hi.wait.q.nodup, hi.wait.q.count, hi.wait.q.low, hi.wait.q.sorted⟩
    · rw [tb]
      have h1 := hi.wait.ids
      rw [hAB] at h1
      have h2 : ∀ h ∈ A ++ B, h.id < s.nextId := by rw [← hAB]; exact hi.wait.lt
      have hperm : (A ++ l :: r :: B).Perm (l :: r :: (A ++ B)) :=
        (List.perm_middle).trans (List.Perm.cons _ List.perm_middle)
      rw [(hperm.map Half.id).nodup_iff]
      simp only [List.map_cons, List.nodup_cons, List.mem_cons, lid, rid]
      refine ⟨?_, ?_, h1⟩
      · rintro (h | h)
        · omega
        · obtain ⟨x, hx, hxe⟩ := List.mem_map.1 h
          have := h2 x hx
          omega
      · intro h
        obtain ⟨x, hx, hxe⟩ := List.mem_map.1 h
        have := h2 x hx
        omega
    · intro h hh
      have tn : t.nextId = s.nextId + 2 := by rw [← ht]
      rw [tb] at hh
      rw [tn]
      rcases List.mem_append.1 hh with hh | hh
      · have := hi.wait.lt h (memB h (.inl hh)); omega
      · rcases List.mem_cons.1 hh with rfl | hh
        · omega
        · rcases List.mem_cons.1 hh with rfl | hh
          · omega
          · have := hi.wait.lt h (memB h (.inr hh)); omega
    · intro j hj
      obtain ⟨h, h1, h2⟩ := hi.wait.queued j ((tq j).1 hj)
      exact ⟨h, hdl h h1, h2⟩
    · intro h hh hne
      rw [tev] at hne
      rw [tq]
      rw [tb] at hh
      rcases List.mem_append.1 hh with hh | hh
      · exact hi.wait.waiting h (memB h (.inl hh)) hne
      · rcases List.mem_cons.1 hh with rfl | hh
        · exact absurd (hi.wait.fresh _ (by omega)) hne
        · rcases List.mem_cons.1 hh with rfl | hh
          · exact absurd (hi.wait.fresh _ (by omega)) hne
          · exact hi.wait.waiting h (memB h (.inr hh)) hne
    · intro j hj
      rw [tev]
      exact hi.wait.fresh j (by rw [← ht] at hj; dsimp only at hj; omega)
  -- the first intersection
  rcases (intersect_onlyZero A.getLast? (some l)).cases with e3 | ⟨v, e3⟩
  · left; rw [e3]
  rw [e3]
  dsimp only
  have hAl : ∀ h, A.getLast? = some h → h ∈ t.beach.dropLast := by
    intro h hh
    rw [tb, List.dropLast_append_of_ne_nil (by simp)]
    exact List.mem_append_left _ (List.mem_of_getLast? hh)
  rcases repush_wait hwait A.getLast? v p.x p.y hAl with e4 | ⟨t', e4, hw', hr', hev', hin'⟩
  · left; rw [e4]
  rw [e4]
  dsimp only
  rcases (intersect_onlyZero (some r) B.head?).cases with e5 | ⟨w, e5⟩
  · left; rw [e5]
  rw [e5]
  dsimp only
  have hrn : ¬ inQ t' r.id := by
    intro hin
    rcases hin' _ hin with hin | ⟨h, hh, he⟩
    · rw [tq] at hin
      obtain ⟨b', hb'⟩ := hin
      obtain ⟨_, _, h3, -⟩ := hi.wait.q.loc b' _ hb'
      rw [hi.wait.fresh _ (by omega)] at h3
      cases h3
    · have := hi.wait.lt h (memB h (.inl (List.mem_of_getLast? hh)))
      omega
  have hrd : ∀ x, w = some x → r ∈ t'.beach.dropLast := by
    intro x hx
    rw [hr'.beach, tb]
    rw [hx] at e5
    cases B with
    | nil => cases e5
    | cons b B =>
      rw [List.dropLast_append_of_ne_nil (by simp), List.dropLast_cons_cons, List.dropLast_cons_cons]
      simp
  rcases pushNew_wait hw' r w p.x p.y hrd hrn with e6 | ⟨t'', e6, hw'', hr'', hev''⟩
  · left; rw [e6]
  right
  have hrest := hr'.trans hr''
  refine ⟨t'', e6, ⟨hw'', ?_, by rw [hrest.beach]; exact hchain, ?_, ?_, ?_, ?_, ?_, ?_, ?_⟩, by rw [hrest.vertices, ← ht]⟩
  · rw [hrest.beach]
    exact hbook.congr hrest.made hrest.ends hrest.out (by rw [hrest.vertices]; exact fun _ h => h)
  · intro f hf
    rw [hrest.made, ← ht] at hf
    rcases List.mem_append.1 hf with hf | hf
    · exact hi.good f hf
    · rw [List.mem_singleton.1 hf]; exact hge
  · intro i x hx
    rcases hev'' i x hx with hx | ⟨v', hv, hxv⟩
    · rcases hev' i x hx with hx | ⟨v', hv, hxv, h, hh⟩
      · rw [tev] at hx; exact hi.evs i x hx
      · rw [hxv]
        rw [hv] at e3
        refine intersect_met ?_ ?_ e3
        · intro h hh
          rcases hh with hh | hh
          · exact hi.goodB (memB h (.inl (List.mem_of_getLast? hh)))
          · cases hh; rw [ledge]; exact hge
        · intro h k hh hk
          cases hk
          rw [lleft, hh]; rfl
    · rw [hxv]
      rw [hv] at e5
      refine intersect_met ?_ ?_ e5
      · intro h hh
        rcases hh with hh | hh
        · cases hh; rw [redge]; exact hge
        · exact hi.goodB (memB h (.inr (List.mem_of_head? hh)))
      · intro h k hh hk
        cases hh
        have h1 := hchain.mid
        rw [tb, List.isChain_append] at h1
        have h2 := (List.isChain_cons_cons.1 h1.2.1).2
        rw [List.isChain_cons] at h2
        exact h2.1 k hk
  · rw [hrest.vertices, ← ht]; exact hi.verts
  · rw [hrest.vertices, hrest.tris, ← ht]; exact hi.tri
  · rw [hrest.tris, ← ht]; exact hi.triS
  · rw [hrest.made, hrest.vertices, ← ht]
    have := hi.nm
    simp only [List.length_append, List.length_cons, List.length_nil]; omega
  · rw [hrest.beach, hrest.vertices, tb, ← ht]
    have := hi.nb
    rw [hAB] at this
    simp only [List.length_append, List.length_cons] at this ⊢
    omega

theorem setEnd_same (e : Edge K) (b : Bool) (v : P K) (s : State K) :
    (s.setEnd e b v).beach = s.beach ∧ (s.setEnd e b v).nextId = s.nextId ∧ (s.setEnd e b v).made = s.made ∧ (s.setEnd e b v).ev = s.ev ∧
      (s.setEnd e b v).buckets = s.buckets ∧ (s.setEnd e b v).count = s.count ∧ (s.setEnd e b v).minidx = s.minidx ∧
      (s.setEnd e b v).vertices = s.vertices ∧ (s.setEnd e b v).tris = s.tris := by
  unfold State.setEnd
  dsimp only
  by_cases h : (if b then (s.ends e.num).1 else (s.ends e.num).2).isSome = true
  · rw [if_pos h]; exact ⟨rfl, rfl, rfl, rfl, rfl, rfl, rfl, rfl, rfl⟩
  · rw [if_neg h]; exact ⟨rfl, rfl, rfl, rfl, rfl, rfl, rfl, rfl, rfl⟩

theorem QInv.congr {env : Env K} {s t : State K} (h : QInv env s) (hev : t.ev = s.ev) (hb : t.buckets = s.buckets) (hc : t.count = s.count)
    (hm : t.minidx = s.minidx) : QInv env t :=
  ⟨by rw [hb]; exact h.size, h.pos, by rw [hb, hev]; exact h.loc, by rw [hb]; exact h.nodup, by rw [hb, hc]; exact h.count, by rw [hb, hm]; exact h.low, by rw [hb, hev]; exact h.sorted⟩

theorem circleEvent_inv {env : Env K} {S : List (Site K)} {k : Nat} {s0 : State K} (hi : Inv env S k s0) {s : State K} {hid : Nat}
    (hq : QInv env s) (hin : ∀ j, inQ s j ↔ inQ s0 j ∧ j ≠ hid) (hid0 : inQ s0 hid) (hev : s.ev = s0.ev) (hsame : SameRest s0 s) :
    s.circleEvent env hid = .error .zeroDivision ∨
      ∃ s', s.circleEvent env hid = .ok s' ∧ Inv env S k s' ∧ s'.beach.length + 1 = s0.beach.length ∧
        ∃ v ys, s0.ev hid = some (v, ys) ∧ s'.vertices = s0.vertices ++ [v] := by
  obtain ⟨b0, hb0⟩ := hid0
  obtain ⟨v, ys, hvy, -⟩ := hi.wait.q.loc b0 hid hb0
  obtain ⟨pre, l, r, post, ha, hL, hlid⟩ := around_spec hid s0.beach [] (hi.wait.queued hid ⟨b0, hb0⟩)
  have hmet : Met S v := hi.evs hid _ hvy
  unfold State.circleEvent
  have ha' : around hid [] s.beach = some (pre, l, r, post) := by rw [hsame.beach, ha, List.nil_append]
  have hvs : s.ev hid = some (v, ys) := by rw [hev, hvy]
  rw [ha', hvs]
  dsimp only
  have hlm : l ∈ s0.beach := by rw [hL]; simp
  have hrm : r ∈ s0.beach := by rw [hL]; simp
  have hpm : ∀ h, h ∈ pre ∨ h ∈ post → h ∈ s0.beach := by
    intro h hh
    rw [hL]
    rcases hh with hh | hh
    · exact List.mem_append_left _ hh
    · exact List.mem_append_right _ (List.mem_cons_of_mem _ (List.mem_cons_of_mem _ hh))
  have hnd := hi.wait.ids
  rw [hL] at hnd
  have hperm : (pre ++ l :: r :: post).Perm (l :: r :: (pre ++ post)) := (List.perm_middle).trans (List.Perm.cons _ List.perm_middle)
  rw [(hperm.map Half.id).nodup_iff] at hnd
  simp only [List.map_cons, List.nodup_cons, List.mem_cons, not_or] at hnd
  generalize hswap : (r.rightSite.y <. l.leftSite.y) = swap
  generalize hbot : (if swap then r.rightSite else l.leftSite) = bot
  generalize htop : (if swap then l.leftSite else r.rightSite) = top
  generalize h1 : ({ s with tris := s.tris ++ [(bot, top, l.rightSite)], vertices := s.vertices ++ [v] } : State K) = s1
  have k1 : s1.beach = s0.beach ∧ s1.nextId = s0.nextId ∧ s1.made = s0.made ∧ s1.ev = s0.ev ∧ s1.buckets = s.buckets ∧ s1.count = s.count ∧
      s1.minidx = s.minidx ∧ s1.vertices = s0.vertices ++ [v] ∧ s1.tris = s0.tris ++ [(bot, top, l.rightSite)] := by
    rw [← h1]
    exact ⟨hsame.beach, hsame.nextId, hsame.made, hev, rfl, rfl, rfl, by rw [hsame.vertices], by rw [hsame.tris]⟩
  have b1 : Book (pre ++ l :: r :: post) s1 := by
    rw [← hL]
    refine hi.book.congr k1.2.2.1 ?_ ?_ ?_
    · rw [← h1]; exact hsame.ends
    · rw [← h1]; exact hsame.out
    · intro w hw; rw [k1.2.2.2.2.2.2.2.1]; exact List.mem_append_left _ hw
  have hv1 : v ∈ s1.vertices := by rw [k1.2.2.2.2.2.2.2.1]; simp
  obtain ⟨b2, -⟩ := book_setEnd b1 hv1
  have k2 := setEnd_same l.edge l.rightward v s1
  generalize s1.setEnd l.edge l.rightward v = s2 at b2 k2 ⊢
  have hv2 : v ∈ s2.vertices := by rw [k2.2.2.2.2.2.2.2.1]; exact hv1
  obtain ⟨b3, -⟩ := book_setEnd b2 hv2
  have k3 := setEnd_same r.edge r.rightward v s2
  generalize s2.setEnd r.edge r.rightward v = s3 at b3 k3 ⊢
  have hv3 : v ∈ s3.vertices := by rw [k3.2.2.2.2.2.2.2.1]; exact hv2
  obtain ⟨c11, c12, c13, c14, c15, c16, c17, c18, c19⟩ := k1
  obtain ⟨c21, c22, c23, c24, c25, c26, c27, c28, c29⟩ := k2
  obtain ⟨c31, c32, c33, c34, c35, c36, c37, c38, c39⟩ := k3
  have q3 : QInv env s3 := hq.congr (by rw [c34, c24, c14, hev]) (by rw [c35, c25, c15]) (by rw [c36, c26, c16]) (by rw [c37, c27, c17])
  have in3 : ∀ j, inQ s3 j ↔ inQ s j := by intro j; unfold inQ; rw [c35, c25, c15]
  have ev3 : s3.ev = s0.ev := by rw [c34, c24, c14]
  obtain ⟨s4, e4, q4, r4, ev4, in4⟩ := drop_spec q3 r.id (by
    intro hne
    rw [ev3] at hne
    rw [in3, hin]
    refine ⟨hi.wait.waiting r hrm hne, ?_⟩
    rw [← hlid]
    exact fun e => hnd.1.1 e.symm)
  rw [e4]
  simp only [bind, Except.bind]
  rcases (mkEdge_onlyZero s4.made.length bot top).cases with e5 | ⟨e, e5⟩
  · left; rw [e5]
  rw [e5]
  dsimp only
  obtain ⟨en, es1, es2⟩ := mkEdge_num e5
  have gl := hi.goodB hlm
  have gr := hi.goodB hrm
  have hbS : bot ∈ S := by rw [← hbot]; split; exact gr.right; exact gl.left
  have htS : top ∈ S := by rw [← htop]; split; exact gl.left; exact gr.right
  have hge : Good S e := ⟨by rw [en, es1, es2]; exact e5, by rw [es1]; exact hbS, by rw [es2]; exact htS⟩
  generalize hb : (⟨s4.nextId, e, swap⟩ : Half K) = b
  have bid : b.id = s0.nextId := by rw [← hb]; dsimp only; rw [r4.nextId, c32, c22, c12]
  have bedge : b.edge = e := by rw [← hb]
  have bleft : b.leftSite = l.leftSite := by
    rw [← hb]; unfold Half.leftSite; dsimp only; rw [es1, es2, ← hbot, ← htop]; unfold Half.leftSite; cases swap <;> rfl
  have bright : b.rightSite = r.rightSite := by
    rw [← hb]; unfold Half.rightSite; dsimp only; rw [es1, es2, ← hbot, ← htop]; unfold Half.rightSite; cases swap <;> rfl
  generalize h5 : ({ s4 with beach := pre ++ b :: post, nextId := s4.nextId + 1, made := s4.made ++ [e] } : State K) = s5
  have b4 : Book (pre ++ post) s4 := b3.congr r4.made r4.ends r4.out (by rw [r4.vertices]; exact fun _ h => h)
  have hv5 : v ∈ s5.vertices := by rw [← h5]; show v ∈ s4.vertices; rw [r4.vertices]; exact hv3
  have b5 : Book ((pre ++ [b]) ++ (⟨0, e, !swap⟩ : Half K) :: post) s5 := by
    have := book_add b4 en (t := s5) (by rw [← h5]) (by rw [← h5]) (by rw [← h5]) (by rw [← h5]) s4.nextId 0 swap
    rw [hb] at this
    simpa using this
  obtain ⟨b6, -⟩ := book_setEnd b5 hv5
  dsimp only at b6
  have k6 := setEnd_same e (!swap) v s5
  generalize s5.setEnd e (!swap) v = s6 at b6 k6 ⊢
  obtain ⟨c61, c62, c63, c64, c65, c66, c67, c68, c69⟩ := k6
  have tb : s6.beach = pre ++ b :: post := by rw [c61, ← h5]
  have t6 : s6.ev = Function.update s0.ev r.id none := by rw [c64, ← h5]; show s4.ev = _; rw [ev4, ev3]
  have in6 : ∀ j, inQ s6 j ↔ inQ s0 j ∧ j ≠ hid ∧ j ≠ r.id := by
    intro j
    have : inQ s6 j ↔ inQ s4 j := by unfold inQ; rw [c65, ← h5]
    rw [this, in4, in3, hin]; tauto
  have n6 : s6.nextId = s0.nextId + 1 := by rw [c62, ← h5]; show s4.nextId + 1 = _; rw [r4.nextId, c32, c22, c12]
  have m6 : s6.made = s0.made ++ [e] := by rw [c63, ← h5]; show s4.made ++ [e] = _; rw [r4.made, c33, c23, c13]
  have v6 : s6.vertices = s0.vertices ++ [v] := by rw [c68, ← h5]; show s4.vertices = _; rw [r4.vertices, c38, c28, c18]
  have tr6 : s6.tris = s0.tris ++ [(bot, top, l.rightSite)] := by rw [c69, ← h5]; show s4.tris = _; rw [r4.tris, c39, c29, c19]
  have q6 : QInv env s6 := by
    have : QInv env s5 := q4.congr (by rw [← h5]) (by rw [← h5]) (by rw [← h5]) (by rw [← h5])
    exact this.congr c64 c65 c66 c67
  have hmid := hi.chain.mid
  rw [hL, List.isChain_append, List.isChain_cons_cons, List.isChain_cons] at hmid
  have hchain : Chain env.bottom s6.beach := by
    rw [tb]
    refine ⟨?_, ?_, ?_⟩
    · rw [List.isChain_append, List.isChain_cons]
      refine ⟨hmid.1, ⟨?_, hmid.2.1.2.2⟩, ?_⟩
      · intro y hy; rw [bright]; exact hmid.2.1.2.1 y hy
      · intro x hx y hy
        simp at hy
        rw [← hy, bleft]
        exact hmid.2.2 x hx l (by simp)
    · intro h hh
      cases pre with
      | nil =>
        simp at hh
        rw [← hh, bleft]
        exact hi.chain.first l (by rw [hL]; simp)
      | cons a A =>
        refine hi.chain.first h ?_
        rw [hL]
        simpa using hh
    · intro h hh
      cases hB' : post.getLast? with
      | some x =>
        refine hi.chain.last h ?_
        rw [hL]
        simp only [List.getLast?_append, List.getLast?_cons, hB'] at hh ⊢
        simpa using hh
      | none =>
        rw [List.getLast?_eq_none_iff] at hB'
        simp [hB', List.getLast?_append] at hh
        rw [← hh, bright]
        exact hi.chain.last r (by rw [hL, hB']; simp [List.getLast?_append])
  have hwait : Wait env s6 := by
    refine ⟨q6, ?_, ?_, ?_, ?_, ?_⟩
    · rw [tb, ((List.perm_middle (l₁ := pre) (l₂ := post) (a := b)).map Half.id).nodup_iff]
      simp only [List.map_cons, List.nodup_cons]
      refine ⟨?_, hnd.2.2⟩
      intro h
      obtain ⟨x, hx, hxe⟩ := List.mem_map.1 h
      have := hi.wait.lt x (hpm x (List.mem_append.1 hx))
      omega
    · intro h hh
      rw [tb] at hh
      rw [n6]
      rcases List.mem_append.1 hh with hh | hh
      · have := hi.wait.lt h (hpm h (.inl hh)); omega
      · rcases List.mem_cons.1 hh with rfl | hh
        · omega
        · have := hi.wait.lt h (hpm h (.inr hh)); omega
    · intro j hj
      obtain ⟨hj0, hj1, hj2⟩ := (in6 j).1 hj
      obtain ⟨h, hh, hhid⟩ := hi.wait.queued j hj0
      refine ⟨h, ?_, hhid⟩
      rw [tb]
      rw [hL, List.dropLast_append_of_ne_nil (by simp)] at hh
      rw [List.dropLast_append_of_ne_nil (by simp)]
      rcases List.mem_append.1 hh with hh | hh
      · exact List.mem_append_left _ hh
      · refine List.mem_append_right _ ?_
        rw [List.dropLast_cons_cons, List.mem_cons] at hh
        have hh := hh.resolve_left (by rintro rfl; exact hj1 (by rw [← hhid, hlid]))
        cases post with
        | nil => simp at hh
        | cons x post =>
          rw [List.dropLast_cons_cons, List.mem_cons] at hh
          have hh := hh.resolve_left (by rintro rfl; exact hj2 hhid.symm)
          rw [List.dropLast_cons_cons]
          exact List.mem_cons_of_mem _ hh
    · intro h hh hne
      rw [tb] at hh
      rw [t6] at hne
      rw [in6]
      have hmem : h ∈ pre ∨ h ∈ post := by
        rcases List.mem_append.1 hh with hh | hh
        · exact .inl hh
        · rcases List.mem_cons.1 hh with rfl | hh
          · rw [Function.update_of_ne (by have := hi.wait.lt r hrm; omega)] at hne
            exact absurd (hi.wait.fresh _ (by omega)) hne
          · exact .inr hh
      have hm2 : h.id ∈ (pre ++ post).map Half.id := List.mem_map.2 ⟨h, List.mem_append.2 hmem, rfl⟩
      have n1 : h.id ≠ l.id := fun e => hnd.1.2 (e ▸ hm2)
      have n2 : h.id ≠ r.id := fun e => hnd.2.1 (e ▸ hm2)
      rw [Function.update_of_ne n2] at hne
      exact ⟨hi.wait.waiting h (hpm h hmem) hne, by rw [← hlid]; exact n1, n2⟩
    · intro j hj
      rw [n6] at hj
      have := hi.wait.lt r hrm
      rw [t6, Function.update_of_ne (by omega)]
      exact hi.wait.fresh j (by omega)
  -- the first intersection
  rcases (intersect_onlyZero pre.getLast? (some b)).cases with e7 | ⟨w, e7⟩
  · left; rw [e7]
  rw [e7]
  dsimp only
  have hAl : ∀ h, pre.getLast? = some h → h ∈ s6.beach.dropLast := by
    intro h hh
    rw [tb, List.dropLast_append_of_ne_nil (by simp)]
    exact List.mem_append_left _ (List.mem_of_getLast? hh)
  rcases repush_wait hwait pre.getLast? w bot.x bot.y hAl with e8 | ⟨t', e8, hw', hr', hev', hin'⟩
  · left; rw [e8]
  rw [e8]
  dsimp only
  rcases (intersect_onlyZero (some b) post.head?).cases with e9 | ⟨u, e9⟩
  · left; rw [e9]
  rw [e9]
  dsimp only
  have hbn : ¬ inQ t' b.id := by
    intro hin
    rcases hin' _ hin with hin | ⟨h, hh, he⟩
    · obtain ⟨b', hb'⟩ := ((in6 _).1 hin).1
      obtain ⟨_, _, h3, -⟩ := hi.wait.q.loc b' _ hb'
      rw [hi.wait.fresh _ (by omega)] at h3
      cases h3
    · have := hi.wait.lt h (hpm h (.inl (List.mem_of_getLast? hh)))
      omega
  have hbd : ∀ x, u = some x → b ∈ t'.beach.dropLast := by
    intro x hx
    rw [hr'.beach, tb]
    rw [hx] at e9
    cases post with
    | nil => cases e9
    | cons c B =>
      rw [List.dropLast_append_of_ne_nil (by simp), List.dropLast_cons_cons]
      simp
  rcases pushNew_wait hw' b u bot.x bot.y hbd hbn with e10 | ⟨t'', e10, hw'', hr'', hev''⟩
  · left; rw [e10]
  right
  have hrest := hr'.trans hr''
  have bm : Book s6.beach s6 := by rw [tb]; simpa using b6
  refine ⟨t'', e10, ⟨hw'', ?_, by rw [hrest.beach]; exact hchain, ?_, ?_, ?_, ?_, ?_, ?_, ?_⟩, ?_, ?_⟩
  · rw [hrest.beach]
    exact bm.congr hrest.made hrest.ends hrest.out (by rw [hrest.vertices]; exact fun _ h => h)
  · intro f hf
    rw [hrest.made, m6] at hf
    rcases List.mem_append.1 hf with hf | hf
    · exact hi.good f hf
    · rw [List.mem_singleton.1 hf]; exact hge
  · intro i x hx
    rcases hev'' i x hx with hx | ⟨v', hv, hxv⟩
    · rcases hev' i x hx with hx | ⟨v', hv, hxv, h, hh⟩
      · rw [t6] at hx
        by_cases ei : i = r.id
        · rw [ei, Function.update_self] at hx; cases hx
        · rw [Function.update_of_ne ei] at hx; exact hi.evs i x hx
      · rw [hxv]
        rw [hv] at e7
        refine intersect_met ?_ ?_ e7
        · intro h hh
          rcases hh with hh | hh
          · exact hi.goodB (hpm h (.inl (List.mem_of_getLast? hh)))
          · cases hh; rw [bedge]; exact hge
        · intro h k hh hk
          cases hk
          rw [bleft]
          exact hmid.2.2 h hh l (by simp)
    · rw [hxv]
      rw [hv] at e9
      refine intersect_met ?_ ?_ e9
      · intro h hh
        rcases hh with hh | hh
        · cases hh; rw [bedge]; exact hge
        · exact hi.goodB (hpm h (.inr (List.mem_of_head? hh)))
      · intro h k hh hk
        cases hh
        rw [bright]
        exact hmid.2.1.2.1 k hk
  · intro x hx
    rw [hrest.vertices, v6] at hx
    rcases List.mem_append.1 hx with hx | hx
    · exact hi.verts x hx
    · rw [List.mem_singleton.1 hx]; exact hmet
  · rw [hrest.vertices, hrest.tris, v6, tr6]
    simp [hi.tri]
  · intro t ht
    rw [hrest.tris, tr6] at ht
    rcases List.mem_append.1 ht with ht | ht
    · exact hi.triS t ht
    · rw [List.mem_singleton.1 ht]
      exact ⟨hbS, htS, gl.right⟩
  · rw [hrest.made, hrest.vertices, m6, v6]
    have := hi.nm
    simp only [List.length_append, List.length_cons, List.length_nil]; omega
  · rw [hrest.beach, hrest.vertices, tb, v6]
    have := hi.nb
    rw [hL] at this
    simp only [List.length_append, List.length_cons, List.length_nil] at this ⊢
    omega
  · rw [hrest.beach, tb, hL]
    simp only [List.length_append, List.length_cons]
    omega
  · exact ⟨v, ys, hvy, by rw [hrest.vertices, v6]⟩

end
end Verif.Voronoi
