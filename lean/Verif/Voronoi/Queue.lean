import Verif.Voronoi.Model
import Mathlib.Algebra.BigOperators.Group.List.Basic
import Mathlib.Data.List.Basic

/-!
# The event queue of the sweep (lemmas)

Nothing here depends on the arithmetic.
-/

set_option linter.unusedSectionVars false

namespace Verif.Voronoi
open Verif PyFloat PyTrig Geom

section
variable {K : Type} [PyTrig K]

/-- The list with number `b`. -/
def bk (bs : List (List Nat)) (b : Nat) : List Nat := (bs[b]?).getD []

theorem bk_modify (bs : List (List Nat)) (i : Nat) (f : List Nat → List Nat) (hi : i < bs.length) (b : Nat) :
    bk (bs.modify i f) b = if b = i then f (bk bs i) else bk bs b := by
  unfold bk
  rw [List.getElem?_modify]
  by_cases h : b = i
  · subst h
    simp [hi]
  · rw [if_neg h]
    simp only [if_neg (show ¬ i = b from fun e => h e.symm)]
    simp

theorem sum_modify (bs : List (List Nat)) (i : Nat) (f : List Nat → List Nat) (hi : i < bs.length) :
    ((bs.modify i f).map List.length).sum + (bk bs i).length = (bs.map List.length).sum + (f (bk bs i)).length := by
  induction bs generalizing i with
  | nil => simp at hi
  | cons l bs ih =>
    cases i with
    | zero => simp [bk]; omega
    | succ i =>
      have := ih i (by simpa using hi)
      simp only [List.modify_succ_cons, List.map_cons, List.sum_cons]
      have e : bk (l :: bs) (i + 1) = bk bs i := by simp [bk]
      rw [e]
      omega

/-- Is the half edge waiting for an event? -/
def inQ (s : State K) (h : Nat) : Prop := ∃ b, h ∈ bk s.buckets b

/-- The order of events is a total preorder. -/
structure OrderLaw (K : Type) [PyTrig K] : Prop where
  trans : ∀ a b c : P K × K, later a b = false → later b c = false → later a c = false
  asymm : ∀ a b : P K × K, later a b = true → later b a = false

/-- The first is not later than the second. -/
def NotLater (ev : Nat → Option (P K × K)) (h q : Nat) : Prop := laterId ev h q = false

/-- The queue is in order. -/
structure QInv (env : Env K) (s : State K) : Prop where
  size : s.buckets.length = env.hashsize
  pos : 0 < env.hashsize
  loc : ∀ b h, h ∈ bk s.buckets b → ∃ v ys, s.ev h = some (v, ys) ∧ bucketOf env ys = .ok b
  nodup : ∀ b, (bk s.buckets b).Nodup
  count : s.count = (s.buckets.map List.length).sum
  low : ∀ b < s.minidx, bk s.buckets b = []
  sorted : OrderLaw K → ∀ b, (bk s.buckets b).Pairwise (NotLater s.ev)

theorem NotLater.congr {ev ev' : Nat → Option (P K × K)} {h q : Nat} (n : NotLater ev h q) (h1 : ev' h = ev h) (h2 : ev' q = ev q) : NotLater ev' h q := by
  unfold NotLater laterId at *
  rw [h1, h2]; exact n

theorem insertEv_sorted (hl : OrderLaw K) (ev : Nat → Option (P K × K)) (h : Nat) (l : List Nat) (hh : (ev h).isSome) (hev : ∀ k ∈ l, (ev k).isSome)
    (hs : l.Pairwise (NotLater ev)) : (insertEv (laterId ev h) h l).Pairwise (NotLater ev) := by
  have tr : ∀ a b c, (ev a).isSome → (ev b).isSome → (ev c).isSome → NotLater ev a b → NotLater ev b c → NotLater ev a c := by
    intro a b c ha hb hc h1 h2
    unfold NotLater laterId at *
    obtain ⟨a', ha⟩ := Option.isSome_iff_exists.1 ha
    obtain ⟨b', hb⟩ := Option.isSome_iff_exists.1 hb
    obtain ⟨c', hc⟩ := Option.isSome_iff_exists.1 hc
    rw [ha, hb] at h1
    rw [hb, hc] at h2
    rw [ha, hc]
    exact hl.trans _ _ _ h1 h2
  induction l with
  | nil => simp [insertEv]
  | cons q l ih =>
    unfold insertEv
    rw [List.pairwise_cons] at hs
    have hq := hev q (by simp)
    split
    · rename_i hg
      rw [List.pairwise_cons]
      refine ⟨?_, ih (fun k hk => hev k (List.mem_cons_of_mem _ hk)) hs.2⟩
      have hqh : NotLater ev q h := by
        unfold NotLater laterId at *
        obtain ⟨a', ha⟩ := Option.isSome_iff_exists.1 hh
        obtain ⟨b', hb⟩ := Option.isSome_iff_exists.1 hq
        rw [ha, hb] at hg
        rw [ha, hb]
        exact hl.asymm _ _ hg
      intro k hk
      have hk' : k = h ∨ k ∈ l := by
        clear ih hs hev
        revert hk
        generalize laterId ev h = g
        induction l with
        | nil => simp [insertEv]
        | cons q l ih =>
          unfold insertEv
          split
          · simp only [List.mem_cons]; tauto
          · simp
      rcases hk' with rfl | hk'
      · exact hqh
      · exact hs.1 k hk'
    · rename_i hg
      have hhq : NotLater ev h q := by unfold NotLater; simpa using hg
      rw [List.pairwise_cons]
      refine ⟨?_, List.pairwise_cons.2 hs⟩
      intro k hk
      rcases List.mem_cons.1 hk with rfl | hk
      · exact hhq
      · exact tr h q k hh hq (hev k (List.mem_cons_of_mem _ hk)) hhq (hs.1 k hk)

theorem bucketOf_lt {env : Env K} (hp : 0 < env.hashsize) {ys : K} {b : Nat} (h : bucketOf env ys = .ok b) : b < env.hashsize := by
  unfold bucketOf at h
  cases hq : pdiv (ys -. env.ymin) env.deltay with
  | error e => rw [hq] at h; cases h
  | ok q =>
    rw [hq] at h
    simp only [bind, Except.bind, pure, Except.pure, Except.ok.injEq] at h
    rw [← h]
    split <;> omega

theorem bucketOf_error {env : Env K} {ys : K} {e : PyErr} (h : bucketOf env ys = .error e) : e = .zeroDivision := by
  unfold bucketOf pdiv at h
  split at h
  · cases h; rfl
  · cases h

theorem insertEv_mem (gt : Nat → Bool) (h : Nat) (l : List Nat) (k : Nat) : k ∈ insertEv gt h l ↔ k = h ∨ k ∈ l := by
  induction l with
  | nil => simp [insertEv]
  | cons q l ih =>
    unfold insertEv
    split
    · simp only [List.mem_cons, ih]; tauto
    · simp

theorem insertEv_length (gt : Nat → Bool) (h : Nat) (l : List Nat) : (insertEv gt h l).length = l.length + 1 := by
  induction l with
  | nil => rfl
  | cons q l ih =>
    unfold insertEv
    split
    · simp [ih]
    · simp

theorem insertEv_nodup (gt : Nat → Bool) (h : Nat) (l : List Nat) (hn : l.Nodup) (hm : h ∉ l) : (insertEv gt h l).Nodup := by
  induction l with
  | nil => simp [insertEv]
  | cons q l ih =>
    unfold insertEv
    simp only [List.mem_cons, not_or] at hm
    rw [List.nodup_cons] at hn
    split
    · rw [List.nodup_cons, insertEv_mem]
      refine ⟨?_, ih hn.2 hm.2⟩
      rintro (h1 | h1)
      · exact hm.1 h1.symm
      · exact hn.1 h1
    · rw [List.nodup_cons, List.nodup_cons, List.mem_cons]
      exact ⟨by rintro (h1 | h1); exact hm.1 h1; exact hm.2 h1, hn⟩

/-- What a queue operation leaves alone. -/
structure SameRest (s s' : State K) : Prop where
  beach : s'.beach = s.beach
  nextId : s'.nextId = s.nextId
  made : s'.made = s.made
  ends : s'.ends = s.ends
  vertices : s'.vertices = s.vertices
  out : s'.out = s.out
  tris : s'.tris = s.tris

theorem SameRest.refl (s : State K) : SameRest s s := ⟨rfl, rfl, rfl, rfl, rfl, rfl, rfl⟩

theorem SameRest.trans {s t u : State K} (h : SameRest s t) (k : SameRest t u) : SameRest s u :=
  ⟨k.beach.trans h.beach, k.nextId.trans h.nextId, k.made.trans h.made, k.ends.trans h.ends, k.vertices.trans h.vertices, k.out.trans h.out,
    k.tris.trans h.tris⟩

theorem push_spec {env : Env K} {s : State K} (hq : QInv env s) (h : Nat) (hn : ¬ inQ s h) (v : P K) (off : K) :
    (s.push env h v off = .error .zeroDivision) ∨
    ∃ s', s.push env h v off = .ok s' ∧ QInv env s' ∧ SameRest s s' ∧ s'.ev = Function.update s.ev h (some (v, v.y +. off)) ∧
      ∀ k, inQ s' k ↔ k = h ∨ inQ s k := by
  unfold State.push
  cases hb : bucketOf env (v.y +. off) with
  | error e => rw [bucketOf_error hb]; exact Or.inl rfl
  | ok b =>
    refine Or.inr ⟨_, rfl, ?_, ⟨rfl, rfl, rfl, rfl, rfl, rfl, rfl⟩, rfl, ?_⟩
    · have hlt : b < s.buckets.length := by rw [hq.size]; exact bucketOf_lt hq.pos hb
      have hbk : ∀ f b', bk (s.buckets.modify b f) b' = if b' = b then f (bk s.buckets b) else bk s.buckets b' := fun f b' => bk_modify _ _ _ hlt _
      refine ⟨by simpa using hq.size, hq.pos, ?_, ?_, ?_, ?_, ?_⟩
      · intro b' k hk
        dsimp only at hk ⊢
        rw [hbk] at hk
        by_cases hkh : k = h
        · subst hkh
          rw [Function.update_self]
          by_cases hbb : b' = b
          · subst hbb; exact ⟨v, _, rfl, hb⟩
          · rw [if_neg hbb] at hk
            exact absurd ⟨b', hk⟩ hn
        · rw [Function.update_of_ne hkh]
          by_cases hbb : b' = b
          · subst hbb
            rw [if_pos rfl, insertEv_mem] at hk
            exact hq.loc _ _ (hk.resolve_left hkh)
          · rw [if_neg hbb] at hk
            exact hq.loc _ _ hk
      · intro b'
        dsimp only
        rw [hbk]
        by_cases hbb : b' = b
        · rw [if_pos hbb]
          exact insertEv_nodup _ _ _ (hq.nodup b) (fun hm => hn ⟨b, hm⟩)
        · rw [if_neg hbb]; exact hq.nodup b'
      · dsimp only
        have := sum_modify s.buckets b (insertEv (laterId (Function.update s.ev h (some (v, v.y +. off))) h) h) hlt
        rw [insertEv_length] at this
        have h1 := hq.count
        omega
      · intro b' hb'
        dsimp only at hb' ⊢
        rw [hbk, if_neg (by omega)]
        exact hq.low b' (by omega)
      · intro hl b'
        dsimp only
        have old : ∀ b'', (bk s.buckets b'').Pairwise (NotLater (Function.update s.ev h (some (v, v.y +. off)))) := by
          intro b''
          refine (hq.sorted hl b'').imp_of_mem ?_
          intro x y hx hy hxy
          exact hxy.congr (Function.update_of_ne (by rintro rfl; exact hn ⟨b'', hx⟩) _ _) (Function.update_of_ne (by rintro rfl; exact hn ⟨b'', hy⟩) _ _)
        rw [hbk]
        split
        · refine insertEv_sorted hl _ _ _ (by rw [Function.update_self]; rfl) ?_ (old b)
          intro k hk
          rw [Function.update_of_ne (by rintro rfl; exact hn ⟨b, hk⟩)]
          obtain ⟨w, ys, h1, -⟩ := hq.loc b k hk
          rw [h1]; rfl
        · exact old b'
    · intro k
      have hlt : b < s.buckets.length := by rw [hq.size]; exact bucketOf_lt hq.pos hb
      unfold inQ
      dsimp only
      constructor
      · rintro ⟨b', hk⟩
        rw [bk_modify _ _ _ hlt] at hk
        by_cases hbb : b' = b
        · rw [if_pos hbb, insertEv_mem] at hk
          rcases hk with rfl | hk
          · exact Or.inl rfl
          · exact Or.inr ⟨b, hk⟩
        · rw [if_neg hbb] at hk
          exact Or.inr ⟨b', hk⟩
      · rintro (rfl | ⟨b', hk⟩)
        · refine ⟨b, ?_⟩
          rw [bk_modify _ _ _ hlt, if_pos rfl, insertEv_mem]
          exact Or.inl rfl
        · refine ⟨b', ?_⟩
          rw [bk_modify _ _ _ hlt]
          split
          · rename_i e
            subst e
            rw [insertEv_mem]; exact Or.inr hk
          · exact hk

theorem drop_spec {env : Env K} {s : State K} (hq : QInv env s) (h : Nat) (hin : s.ev h ≠ none → inQ s h) :
    ∃ s', s.drop env h = .ok s' ∧ QInv env s' ∧ SameRest s s' ∧ s'.ev = Function.update s.ev h none ∧ ∀ k, inQ s' k ↔ inQ s k ∧ k ≠ h := by
  unfold State.drop
  cases hev : s.ev h with
  | none =>
    refine ⟨s, rfl, hq, SameRest.refl s, ?_, ?_⟩
    · rw [← hev, Function.update_eq_self]
    · intro k
      refine ⟨fun hk => ⟨hk, ?_⟩, fun hk => hk.1⟩
      rintro rfl
      obtain ⟨b, hk⟩ := hk
      obtain ⟨v, ys, h1, -⟩ := hq.loc b k hk
      rw [hev] at h1
      cases h1
  | some w =>
    obtain ⟨v, ys⟩ := w
    obtain ⟨b, hm⟩ := hin (by rw [hev]; simp)
    obtain ⟨v', ys', h1, h2⟩ := hq.loc b h hm
    rw [hev] at h1
    cases h1
    have hlt : b < s.buckets.length := by rw [hq.size]; exact bucketOf_lt hq.pos h2
    have hbk : ∀ f b', bk (s.buckets.modify b f) b' = if b' = b then f (bk s.buckets b) else bk s.buckets b' := fun f b' => bk_modify _ _ _ hlt _
    have huniq : ∀ b', h ∈ bk s.buckets b' → b' = b := by
      intro b' hm'
      obtain ⟨v', ys', h3, h4⟩ := hq.loc b' h hm'
      rw [hev] at h3
      cases h3
      rw [h2] at h4
      cases h4
      rfl
    dsimp only
    rw [h2]
    simp only [bind, Except.bind]
    rw [if_pos (show h ∈ (s.buckets[b]?).getD [] from hm)]
    refine ⟨_, rfl, ⟨by simpa using hq.size, hq.pos, ?_, ?_, ?_, ?_, ?_⟩, ⟨rfl, rfl, rfl, rfl, rfl, rfl, rfl⟩, rfl, ?_⟩
    · intro b' k hk
      dsimp only at hk ⊢
      rw [hbk] at hk
      have hk' : k ∈ bk s.buckets b' ∧ k ≠ h := by
        by_cases hbb : b' = b
        · subst hbb
          rw [if_pos rfl, List.Nodup.mem_erase_iff (hq.nodup b')] at hk
          exact ⟨hk.2, hk.1⟩
        · rw [if_neg hbb] at hk
          refine ⟨hk, ?_⟩
          rintro rfl
          exact hbb (huniq b' hk)
      rw [Function.update_of_ne hk'.2]
      exact hq.loc _ _ hk'.1
    · intro b'
      dsimp only
      rw [hbk]
      split
      · exact (hq.nodup b).erase h
      · exact hq.nodup b'
    · dsimp only
      have := sum_modify s.buckets b (fun l => l.erase h) hlt
      simp only [List.length_erase_of_mem hm] at this
      have h1 := hq.count
      have h3 := List.length_pos_of_mem hm
      omega
    · intro b' hb'
      dsimp only at hb' ⊢
      rw [hbk, if_neg (by omega)]
      exact hq.low b' (by omega)
    · intro hl b'
      dsimp only
      have sub : ∀ (l : List Nat), l.Pairwise (NotLater s.ev) → h ∉ l → l.Pairwise (NotLater (Function.update s.ev h none)) := by
        intro l hp hm
        refine hp.imp_of_mem ?_
        intro x y hx hy hxy
        exact hxy.congr (Function.update_of_ne (by rintro rfl; exact hm hx) _ _) (Function.update_of_ne (by rintro rfl; exact hm hy) _ _)
      rw [hbk]
      split
      · exact sub _ ((hq.sorted hl b).sublist List.erase_sublist) (fun hm => (List.Nodup.mem_erase_iff (hq.nodup b)).1 hm |>.1 rfl)
      · rename_i hne
        exact sub _ (hq.sorted hl b') (fun hm => hne (huniq b' hm))
    · intro k
      unfold inQ
      dsimp only
      constructor
      · rintro ⟨b', hk⟩
        rw [hbk] at hk
        by_cases hbb : b' = b
        · subst hbb
          rw [if_pos rfl, List.Nodup.mem_erase_iff (hq.nodup b')] at hk
          exact ⟨⟨b', hk.2⟩, hk.1⟩
        · rw [if_neg hbb] at hk
          refine ⟨⟨b', hk⟩, ?_⟩
          rintro rfl
          exact hbb (huniq b' hk)
      · rintro ⟨⟨b', hk⟩, hne⟩
        refine ⟨b', ?_⟩
        rw [hbk]
        split
        · rename_i e
          subst e
          rw [List.Nodup.mem_erase_iff (hq.nodup b')]
          exact ⟨hne, hk⟩
        · exact hk

theorem firstFrom_spec (bs : List (List Nat)) : ∀ i, (firstFrom bs i = none ∧ ∀ b, bk bs b = []) ∨
    ∃ k h t, firstFrom bs i = some (i + k, h) ∧ bs[k]? = some (h :: t) ∧ ∀ m < k, bk bs m = [] := by
  induction bs with
  | nil => intro i; exact Or.inl ⟨rfl, by simp [bk]⟩
  | cons l bs ih =>
    intro i
    cases l with
    | cons h t => exact Or.inr ⟨0, h, t, by simp [firstFrom], by simp, by simp⟩
    | nil =>
      have hs : ∀ b, bk ([] :: bs) (b + 1) = bk bs b := by intro b; simp [bk]
      rcases ih (i + 1) with ⟨h1, h2⟩ | ⟨k, h, t, h1, h2, h3⟩
      · refine Or.inl ⟨by simp [firstFrom, h1], ?_⟩
        intro b
        cases b with
        | zero => simp [bk]
        | succ b => rw [hs]; exact h2 b
      · refine Or.inr ⟨k + 1, h, t, ?_, by simpa using h2, ?_⟩
        · simp only [firstFrom, h1]
          congr 2
          omega
        · intro m hm
          cases m with
          | zero => simp [bk]
          | succ m => rw [hs]; exact h3 m (by omega)

theorem min_spec {env : Env K} {s : State K} (hq : QInv env s) (hc : s.count ≠ 0) :
    ∃ i h, firstFrom (s.buckets.drop s.minidx) s.minidx = some (i, h) ∧ inQ s h ∧ QInv env ({ s with minidx := i } : State K) ∧
      QInv env (s.popAt i) ∧ (∀ k, inQ (s.popAt i) k ↔ inQ s k ∧ k ≠ h) ∧
      ∃ t, bk s.buckets i = h :: t ∧ ∀ b < i, bk s.buckets b = [] := by
  have hdrop : ∀ m, bk (s.buckets.drop s.minidx) m = bk s.buckets (s.minidx + m) := by
    intro m; unfold bk; rw [List.getElem?_drop]
  rcases firstFrom_spec (s.buckets.drop s.minidx) s.minidx with ⟨-, h2⟩ | ⟨k, h, t, h1, h2, h3⟩
  · exfalso
    apply hc
    rw [hq.count]
    have hall : ∀ l ∈ s.buckets, l = [] := by
      intro l hl
      obtain ⟨b, hb⟩ := List.mem_iff_getElem?.1 hl
      have e : bk s.buckets b = l := by simp [bk, hb]
      by_cases hlt : b < s.minidx
      · rw [← e]; exact hq.low b hlt
      · have := h2 (b - s.minidx)
        rw [hdrop, show s.minidx + (b - s.minidx) = b by omega, e] at this
        exact this
    rw [List.sum_eq_zero]
    intro x hx
    obtain ⟨l, hl, rfl⟩ := List.mem_map.1 hx
    rw [hall l hl]
    rfl
  · rw [List.getElem?_drop] at h2
    have hbi : bk s.buckets (s.minidx + k) = h :: t := by simp [bk, h2]
    have hlow : ∀ b < s.minidx + k, bk s.buckets b = [] := by
      intro b hb
      by_cases hlt : b < s.minidx
      · exact hq.low b hlt
      · have := h3 (b - s.minidx) (by omega)
        rw [hdrop, show s.minidx + (b - s.minidx) = b by omega] at this
        exact this
    have hlt : s.minidx + k < s.buckets.length := by
      rw [List.getElem?_eq_some_iff] at h2
      exact h2.1
    have hbk : ∀ b', bk (s.buckets.modify (s.minidx + k) List.tail) b' = if b' = s.minidx + k then t else bk s.buckets b' := by
      intro b'
      rw [bk_modify _ _ _ hlt, hbi]
      rfl
    have hnd : h ∉ t ∧ t.Nodup := by
      have := hq.nodup (s.minidx + k)
      rw [hbi, List.nodup_cons] at this
      exact this
    have huniq : ∀ b', h ∈ bk s.buckets b' → b' = s.minidx + k := by
      intro b' hm'
      obtain ⟨v', ys', h3, h4⟩ := hq.loc b' h hm'
      obtain ⟨v'', ys'', h5, h6⟩ := hq.loc (s.minidx + k) h (by rw [hbi]; simp)
      rw [h3] at h5
      cases h5
      rw [h4] at h6
      cases h6
      rfl
    have hinq : ∀ k', inQ (s.popAt (s.minidx + k)) k' ↔ inQ s k' ∧ k' ≠ h := by
      intro k'
      unfold inQ State.popAt
      dsimp only
      constructor
      · rintro ⟨b', hk⟩
        rw [hbk] at hk
        by_cases hbb : b' = s.minidx + k
        · rw [if_pos hbb] at hk
          refine ⟨⟨s.minidx + k, by rw [hbi]; exact List.mem_cons_of_mem _ hk⟩, ?_⟩
          rintro rfl
          exact hnd.1 hk
        · rw [if_neg hbb] at hk
          refine ⟨⟨b', hk⟩, ?_⟩
          rintro rfl
          exact hbb (huniq b' hk)
      · rintro ⟨⟨b', hk⟩, hne⟩
        refine ⟨b', ?_⟩
        rw [hbk]
        split
        · rename_i e
          rw [e, hbi] at hk
          exact (List.mem_cons.1 hk).resolve_left hne
        · exact hk
    refine ⟨s.minidx + k, h, h1, ⟨s.minidx + k, by rw [hbi]; simp⟩, ⟨hq.size, hq.pos, hq.loc, hq.nodup, hq.count, hlow, hq.sorted⟩, ?_, hinq, ?_⟩
    refine ⟨by simpa [State.popAt] using hq.size, hq.pos, ?_, ?_, ?_, ?_, ?_⟩
    · intro b' k' hk
      have : inQ s k' := ((hinq k').1 ⟨b', hk⟩).1
      unfold State.popAt at hk ⊢
      dsimp only at hk ⊢
      rw [hbk] at hk
      by_cases hbb : b' = s.minidx + k
      · rw [if_pos hbb] at hk
        exact hq.loc b' k' (by rw [hbb, hbi]; exact List.mem_cons_of_mem _ hk)
      · rw [if_neg hbb] at hk
        exact hq.loc b' k' hk
    · intro b'
      unfold State.popAt
      dsimp only
      rw [hbk]
      split
      · exact hnd.2
      · exact hq.nodup b'
    · unfold State.popAt
      dsimp only
      have := sum_modify s.buckets (s.minidx + k) List.tail hlt
      rw [hbi] at this
      simp only [List.length_cons, List.tail_cons] at this
      have h1 := hq.count
      omega
    · intro b' hb'
      unfold State.popAt at hb' ⊢
      dsimp only at hb' ⊢
      rw [hbk, if_neg (by omega)]
      exact hlow b' hb'
    · intro hl b'
      unfold State.popAt
      dsimp only
      rw [hbk]
      split
      · have := hq.sorted hl (s.minidx + k)
        rw [hbi, List.pairwise_cons] at this
        exact this.2
      · exact hq.sorted hl b'
    · exact ⟨t, hbi, hlow⟩

end
end Verif.Voronoi
