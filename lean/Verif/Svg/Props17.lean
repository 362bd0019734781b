import Verif.Svg.Props16

/-!
# C124: what tcnc draws does not change what tcnc cuts
-/

set_option linter.unusedSectionVars false

namespace Verif.Svg
open Verif PyFloat PyTrig Geom Css

/-! ## Specification -/

section
variable {K : Type} [PyTrig K]

/-- Specification: a layer of tcnc's own or an empty group, with no style of its own and with a transform that can be read. -/
def Harmless (env : NumEnv K) (n : XNode) : Prop :=
  (OwnLayer n ∨ n.isGroup = true ∧ n.kids = []) ∧ n.get "style".toList = none ∧ n.get "visibility".toList = none ∧ ∃ m, parseTransform env (n.get "transform".toList) = .ok m

mutual
/-- Specification: the second element is the first one with anything changed inside the layers of tcnc's own. -/
inductive Redrawn (env : NumEnv K) : XNode → XNode → Prop
  | comment : Redrawn env .comment .comment
  | own (ns : Ns) (t : Str) (a : List (Str × Str)) (k k' : List XNode) : OwnLayer (.elem ns t a k) → Redrawn env (.elem ns t a k) (.elem ns t a k')
  | elem (ns : Ns) (t : Str) (a : List (Str × Str)) (k k' : List XNode) : RedrawnList env k k' → Redrawn env (.elem ns t a k) (.elem ns t a k')
/-- Specification: the same for the children of an element. -/
inductive RedrawnList (env : NumEnv K) : List XNode → List XNode → Prop
  | nil : RedrawnList env [] []
  | cons (n n' : XNode) (k k' : List XNode) : Redrawn env n n' → RedrawnList env k k' → RedrawnList env (n :: k) (n' :: k')
end

/-- Specification: the same for the children of the drawing, where there may also be further layers of tcnc's own, or empty groups. -/
inductive RedrawnTop (env : NumEnv K) : List XNode → List XNode → Prop
  | nil : RedrawnTop env [] []
  | cons (n n' : XNode) (k k' : List XNode) : Redrawn env n n' → RedrawnTop env k k' → RedrawnTop env (n :: k) (n' :: k')
  | added (n : XNode) (k k' : List XNode) : Harmless env n → RedrawnTop env k k' → RedrawnTop env k (n :: k')

/-- Specification: the second drawing is the first one as tcnc leaves it: other things in its own layers, and other layers of its own. -/
def RedrawnDoc (env : NumEnv K) (doc doc' : XNode) : Prop :=
  ∃ ns t a k k', doc = .elem ns t a k ∧ doc' = .elem ns t a k' ∧ RedrawnTop env k k'

/-- Specification: the same element in both drawings: with the same tags and attributes on it and on all its ancestors. -/
def SamePlace (env : NumEnv K) (a a' : At) : Prop := Redrawn env a.node a'.node ∧ a.up.map XNode.top = a'.up.map XNode.top

/-- Specification: every reference of the first drawing refers to the same element in both, or to nothing in both. -/
def SameRefs (env : NumEnv K) (doc doc' : XNode) : Prop :=
  ∀ b ∈ doc.places [], ∀ ref, b.node.get "xlink:href".toList = some ref →
    (byId doc (ref.drop 1) = none ∧ byId doc' (ref.drop 1) = none) ∨
    ∃ r r', byId doc (ref.drop 1) = some r ∧ byId doc' (ref.drop 1) = some r' ∧ SamePlace env r r'

/-! ## Proofs -/

theorem redrawn_refl (env : NumEnv K) (n : XNode) : Redrawn env n n := by
  refine XNode.rec (motive_1 := fun n => Redrawn env n n) (motive_2 := fun k => RedrawnList env k k) ?_ ?_ ?_ ?_ n
  · intro ns t a k h; exact .elem ns t a k k h
  · exact .comment
  · exact .nil
  · intro n k h1 h2; exact .cons n n k k h1 h2

theorem redrawnList_refl (env : NumEnv K) (k : List XNode) : RedrawnList env k k := by
  induction k with
  | nil => exact .nil
  | cons n k ih => exact .cons n n k k (redrawn_refl env n) ih

theorem Redrawn.top {env : NumEnv K} {n n' : XNode} (h : Redrawn env n n') : n.top = n'.top := by
  cases h <;> rfl

theorem top_get {n n' : XNode} (h : n.top = n'.top) (k : Str) : n.get k = n'.get k := by
  cases n <;> cases n' <;> simp_all [XNode.top, XNode.get]

theorem top_toNode {n n' : XNode} (h : n.top = n'.top) : n.toNode = n'.toNode := by
  unfold XNode.toNode; rw [top_get h, top_get h]

theorem top_isGroup {n n' : XNode} (h : n.top = n'.top) : n.isGroup = n'.isGroup := by
  cases n <;> cases n' <;> simp_all [XNode.top, XNode.isGroup]

theorem top_isUse {n n' : XNode} (h : n.top = n'.top) : n.isUse = n'.isUse := by
  cases n <;> cases n' <;> simp_all [XNode.top, XNode.isUse]

theorem top_skips {n n' : XNode} (h : n.top = n'.top) (c : Flat) : c.skips n = c.skips n' := by
  unfold Flat.skips XNode.layer; rw [top_isGroup h, top_get h]

theorem top_num {n n' : XNode} (h : n.top = n'.top) (env : NumEnv K) (k : Str) : n.num env k = n'.num env k := by
  unfold XNode.num; rw [top_get h]

theorem map_tops {α : Type} (f : XNode → α) (hf : ∀ n n' : XNode, n.top = n'.top → f n = f n') : ∀ {l l' : List XNode}, l.map XNode.top = l'.map XNode.top →
    l.map f = l'.map f
  | [], [], _ => rfl
  | [], _ :: _, h => by simp at h
  | _ :: _, [], h => by simp at h
  | a :: l, b :: l', h => by
    simp only [List.map_cons, List.cons.injEq] at h ⊢
    exact ⟨hf a b h.1, map_tops f hf h.2⟩

theorem SamePlace.chain {env : NumEnv K} {a a' : At} (h : SamePlace env a a') : a.chain.map XNode.toNode = a'.chain.map XNode.toNode :=
  map_tops _ (fun _ _ => top_toNode) (by simp only [At.chain, List.map_cons, h.1.top, h.2])

theorem SamePlace.transforms {env : NumEnv K} {a a' : At} (h : SamePlace env a a') :
    (a.up.map fun x : XNode => x.get "transform".toList) = a'.up.map fun x : XNode => x.get "transform".toList :=
  map_tops _ (fun _ _ h => top_get h _) h.2

/-- Results that are the same, up to the layers of tcnc's own. -/
inductive SameResult (env : NumEnv K) : Except PyErr (List (At × Mat K)) → Except PyErr (List (At × Mat K)) → Prop
  | error (e : PyErr) : SameResult env (.error e) (.error e)
  | ok (l l' : List (At × Mat K)) : List.Forall₂ (fun x y => SamePlace env x.1 y.1 ∧ x.2 = y.2) l l' → SameResult env (.ok l) (.ok l')

theorem SameResult.append {env : NumEnv K} {α β : Type} {f : α → Except PyErr (List (At × Mat K))} {g : β → Except PyErr (List (At × Mat K))} {a : α} {b : β}
    {l : List α} {l' : List β} (h : SameResult env (f a) (g b)) (h' : SameResult env (concatM f l) (concatM g l')) :
    SameResult env (concatM f (a :: l)) (concatM g (b :: l')) := by
  rw [concatM, concatM]
  generalize f a = x, g b = y at h
  generalize concatM f l = u, concatM g l' = v at h'
  cases h with
  | error e => exact .error e
  | ok l l' h =>
    cases h' with
    | error e => exact .error e
    | ok m m' h' => exact .ok _ _ (List.rel_append h h')

/-- A layer of tcnc's own is left out. -/
theorem flatNode_harmless (env : NumEnv K) (doc n : XNode) (up : List XNode) (k : Nat) (pT : Option (Mat K)) (h : Harmless env n)
    (hT : pT = none → ∃ m, parentTransform env (up.map fun x => x.get "transform".toList) = .ok m) :
    flatNode env doc { skip := [tcncLayer] } (k + 1) pT false ⟨n, up⟩ = .ok [] := by
  obtain ⟨ho, hs, hv, m, hm⟩ := h
  have hvis : nodeVisible false false ((⟨n, up⟩ : At).chain.map XNode.toNode) = .ok true := by
    show nodeVisible false false (n.toNode :: up.map XNode.toNode) = .ok true
    have : n.toNode = ⟨none, none⟩ := by unfold XNode.toNode; rw [hs, hv]
    rw [this]; rfl
  have hg : n.isGroup = true := by
    rcases ho with ⟨_, h, -⟩ | ⟨h, -⟩ <;> exact h
  have key : ∀ T, (pT = some T ∨ pT = none ∧ parentTransform env (up.map fun x : XNode => x.get "transform".toList) = .ok T) →
      flatNode env doc { skip := [tcncLayer] } (k + 1) pT false ⟨n, up⟩ = .ok [] := by
    intro T hT
    rw [flatNode_group env doc { skip := [tcncLayer] } rfl k pT T m false ⟨n, up⟩ hT hvis hm, if_pos hg]
    split
    · rfl
    · rename_i hsk
      rcases ho with ho | ⟨-, hk⟩
      · exact absurd ((skips_iff n).2 ho) hsk
      · show concatM _ (n.kids.map _) = _
        rw [hk]; rfl
  cases pT with
  | some T => exact key T (.inl rfl)
  | none => obtain ⟨T, hT⟩ := hT rfl; exact key T (.inr ⟨rfl, hT⟩)

theorem RedrawnList.forall₂ {env : NumEnv K} : ∀ {k k' : List XNode}, RedrawnList env k k' → List.Forall₂ (Redrawn env) k k'
  | _, _, .nil => .nil
  | _, _, .cons _ _ _ _ h h' => .cons h h'.forall₂

/-- The children of an element. -/
theorem concat_redrawn {env : NumEnv K} {f g : At → Except PyErr (List (At × Mat K))} {up up' : List XNode} {k k' : List XNode}
    (h : List.Forall₂ (Redrawn env) k k') (hf : ∀ n n', n ∈ k → Redrawn env n n' → SameResult env (f ⟨n, up⟩) (g ⟨n', up'⟩)) :
    SameResult env (concatM f (k.map fun n => (⟨n, up⟩ : At))) (concatM g (k'.map fun n => (⟨n, up'⟩ : At))) := by
  induction h with
  | nil => exact .ok [] [] .nil
  | @cons n n' k k' hn _ ih =>
    exact SameResult.append (hf n n' (by simp) hn) (ih fun m m' hm => hf m m' (List.mem_cons_of_mem _ hm))

/-- The children of the drawing. -/
theorem concat_top {env : NumEnv K} {f g : At → Except PyErr (List (At × Mat K))} {up up' : List XNode} {k k' : List XNode}
    (h : RedrawnTop env k k') (hf : ∀ n n', n ∈ k → Redrawn env n n' → SameResult env (f ⟨n, up⟩) (g ⟨n', up'⟩))
    (hg : ∀ n, Harmless env n → g ⟨n, up'⟩ = .ok []) :
    SameResult env (concatM f (k.map fun n => (⟨n, up⟩ : At))) (concatM g (k'.map fun n => (⟨n, up'⟩ : At))) := by
  induction h with
  | nil => exact .ok [] [] .nil
  | cons n n' k k' hn _ ih =>
    exact SameResult.append (hf n n' (by simp) hn) (ih fun m m' hm => hf m m' (List.mem_cons_of_mem _ hm))
  | added n k k' hn _ ih =>
    have := ih hf
    rw [List.map_cons, concatM, hg n hn]
    simp only [bind, Except.bind]
    generalize concatM f (k.map fun n => (⟨n, up⟩ : At)) = x at this
    generalize concatM g (k'.map fun n => (⟨n, up'⟩ : At)) = y at this ⊢
    cases this with
    | error e => exact .error e
    | ok l l' h => exact .ok _ _ h

theorem flatNode_errors (env : NumEnv K) (doc : XNode) (c : Flat) (n : Nat) (pT : Option (Mat K)) (chk : Bool) (a : At) :
    (∀ e, nodeVisible chk false (a.chain.map XNode.toNode) = .error e → flatNode env doc c (n + 1) pT chk a = .error e) ∧
    (∀ e, nodeVisible chk false (a.chain.map XNode.toNode) = .ok true → pT = none →
      parentTransform env (a.up.map fun x : XNode => x.get "transform".toList) = .error e → flatNode env doc c (n + 1) pT chk a = .error e) ∧
    (∀ e T, nodeVisible chk false (a.chain.map XNode.toNode) = .ok true →
      (pT = some T ∨ pT = none ∧ parentTransform env (a.up.map fun x : XNode => x.get "transform".toList) = .ok T) →
      parseTransform env (a.node.get "transform".toList) = .error e → flatNode env doc c (n + 1) pT chk a = .error e) := by
  refine ⟨?_, ?_, ?_⟩
  · intro e h; rw [flatNode]; simp only [h, bind, Except.bind]
  · rintro e h rfl h'; rw [flatNode]; simp only [h, h', bind, Except.bind, Bool.not_true, Bool.false_eq_true, if_false]
  · rintro e T h (rfl | ⟨rfl, hT⟩) h'
    · rw [flatNode]; simp only [h, h', bind, Except.bind, Bool.not_true, Bool.false_eq_true, if_false]
    · rw [flatNode]; simp only [h, h', hT, bind, Except.bind, Bool.not_true, Bool.false_eq_true, if_false]

theorem flatNode_redrawn (env : NumEnv K) (doc doc' : XNode) (href : SameRefs env doc doc') : ∀ (n : Nat) (pT : Option (Mat K)) (chk : Bool) (a a' : At),
    a ∈ doc.places [] → SamePlace env a a' →
    SameResult env (flatNode env doc { skip := [tcncLayer] } n pT chk a) (flatNode env doc' { skip := [tcncLayer] } n pT chk a') := by
  intro n
  induction n with
  | zero => intro pT chk a a' _ _; rw [flatNode, flatNode]; exact .error _
  | succ n ih =>
    intro pT chk a a' ha hs
    have ht := hs.1.top
    have E := flatNode_errors env doc { skip := [tcncLayer] } n pT chk a
    have E' := flatNode_errors env doc' { skip := [tcncLayer] } n pT chk a'
    rw [← hs.chain, ← hs.transforms, ← top_get ht] at E'
    cases hv : nodeVisible chk false (a.chain.map XNode.toNode) with
    | error e => rw [E.1 e hv, E'.1 e hv]; exact .error e
    | ok v =>
    cases v with
    | false =>
      rw [flatNode_off env doc _ n pT chk a hv, flatNode_off env doc' _ n pT chk a' (by rw [← hs.chain]; exact hv)]
      exact .ok _ _ .nil
    | true =>
    have hP : (∃ e, pT = none ∧ parentTransform env (a.up.map fun x : XNode => x.get "transform".toList) = .error e) ∨
        ∃ T, (pT = some T ∨ pT = none ∧ parentTransform env (a.up.map fun x : XNode => x.get "transform".toList) = .ok T) := by
      cases pT with
      | some T => exact .inr ⟨T, .inl rfl⟩
      | none =>
        cases hp : parentTransform env (a.up.map fun x : XNode => x.get "transform".toList) with
        | error e => exact .inl ⟨e, rfl, rfl⟩
        | ok T => exact .inr ⟨T, .inr ⟨rfl, rfl⟩⟩
    rcases hP with ⟨e, hp1, hp2⟩ | ⟨T, hT⟩
    · rw [E.2.1 e hv hp1 hp2, E'.2.1 e hv hp1 hp2]; exact .error e
    cases ho : parseTransform env (a.node.get "transform".toList) with
    | error e => rw [E.2.2 e T hv hT ho, E'.2.2 e T hv hT ho]; exact .error e
    | ok own =>
    rw [flatNode_group env doc _ rfl n pT T own chk a hT hv ho,
      flatNode_group env doc' _ rfl n pT T own chk a' (by rw [← hs.transforms]; exact hT) (by rw [← hs.chain]; exact hv) (by rw [← top_get ht]; exact ho),
      ← top_isGroup ht, ← top_skips ht, ← top_isUse ht, ← top_get ht, ← top_num ht, ← top_num ht]
    by_cases hg : a.node.isGroup = true
    · rw [if_pos hg, if_pos hg]
      by_cases hsk : ({ skip := [tcncLayer] } : Flat).skips a.node = true
      · rw [if_pos hsk, if_pos hsk]; exact .ok _ _ .nil
      · rw [if_neg hsk, if_neg hsk]
        obtain ⟨an, aup⟩ := a
        obtain ⟨an', aup'⟩ := a'
        obtain ⟨hs1, hs2⟩ := hs
        dsimp only at hs1 hs2 hg hsk ht
        cases hs1 with
        | comment => cases hg
        | own ns t a k k' hown => exact absurd ((skips_iff _).2 hown) hsk
        | elem ns t a k k' hl =>
          refine concat_redrawn hl.forall₂ ?_
          intro m m' hm hr
          refine ih _ _ _ _ ?_ ⟨hr, by simp only [List.map_cons, hs2]; rfl⟩
          exact kid_place ha (List.mem_map_of_mem hm)
    · rw [if_neg hg, if_neg hg]
      by_cases hu : a.node.isUse = true
      · rw [if_pos hu, if_pos hu]
        cases hr : a.node.get "xlink:href".toList with
        | none => exact .ok _ _ .nil
        | some ref =>
          dsimp only
          by_cases he : ref.isEmpty = true
          · rw [if_pos he, if_pos he]; exact .ok _ _ .nil
          · rw [if_neg he, if_neg he]
            rcases href a ha ref hr with ⟨h1, h2⟩ | ⟨r, r', h1, h2, h3⟩
            · rw [h1, h2]; exact .ok _ _ .nil
            · rw [h1, h2]
              dsimp only
              cases a.node.num env "x".toList with
              | error e => exact .error e
              | ok x =>
                cases a.node.num env "y".toList with
                | error e => exact .error e
                | ok y => exact ih _ _ _ _ (byId_place h1) h3
      · rw [if_neg hu, if_neg hu]
        have h1 := hs.1
        cases hn : a.node with
        | comment =>
          rw [hn] at h1
          cases hn' : a'.node with
          | comment => exact .error _
          | elem ns t at' k => rw [hn'] at h1; cases h1
        | elem ns t at' k =>
          rw [hn] at ht
          cases hn' : a'.node with
          | comment => rw [hn'] at ht; simp [XNode.top] at ht
          | elem ns' t' at'' k' =>
            rw [hn'] at ht
            simp only [XNode.top, Option.some.injEq, Prod.mk.injEq] at ht
            obtain ⟨-, rfl, -⟩ := ht
            dsimp only
            split
            · exact .ok _ _ (.cons ⟨hs, rfl⟩ .nil)
            · exact .ok _ _ .nil

/-- Specification: what is cut: the elements (by their tags and attributes) with their transforms, or an exception. -/
def cutList (r : Except PyErr (List (At × Mat K))) : Except PyErr (List (Option (Ns × Str × List (Str × Str)) × Mat K)) :=
  r.map fun l => l.map fun s => (s.1.node.top, s.2)

/-- **C124**: what tcnc itself adds to a drawing, or changes in its own layers, does not change what it cuts: exactly the same elements with the same
transforms in the same order (or the same exception), as long as references are not redirected into those layers. -/
theorem C124_same_cut (env : NumEnv K) (doc doc' : XNode) (limit : Nat) (hl : 0 < limit) (h : RedrawnDoc env doc doc') (href : SameRefs env doc doc')
    (hroot : ∃ m, parseTransform env (doc.get "transform".toList) = .ok m) :
    cutList (tcncShapes env doc' limit []) = cutList (tcncShapes env doc limit []) := by
  have key : SameResult env (tcncShapes env doc limit []) (tcncShapes env doc' limit []) := by
    obtain ⟨ns, t, a, k, k', rfl, rfl, hk⟩ := h
    show SameResult env (shapesOf env _ _ limit none ⟨_, []⟩) (shapesOf env _ _ limit none ⟨_, []⟩)
    unfold shapesOf
    have hc : (⟨.elem ns t a k', []⟩ : At).chain.map XNode.toNode = (⟨.elem ns t a k, []⟩ : At).chain.map XNode.toNode := rfl
    rw [hc]
    simp only [bind, Except.bind]
    cases nodeVisible true false ((⟨.elem ns t a k, []⟩ : At).chain.map XNode.toNode) with
    | error e => exact .error e
    | ok v =>
      cases v with
      | false => exact .ok _ _ .nil
      | true =>
        refine concat_top hk ?_ ?_
        · intro n n' hn hr
          refine flatNode_redrawn env _ _ href limit none false ⟨n, _⟩ ⟨n', _⟩ ?_ ⟨hr, rfl⟩
          exact kid_place (doc_self _) (List.mem_map_of_mem hn)
        · intro n hn
          obtain ⟨l, rfl⟩ : ∃ l, limit = l + 1 := ⟨limit - 1, by omega⟩
          refine flatNode_harmless env _ n _ l none hn fun _ => ?_
          obtain ⟨m, hm⟩ := hroot
          show ∃ m, parentLoop env Mat.ident [(XNode.elem ns t a k').get "transform".toList] = .ok m
          change parseTransform env ((XNode.elem ns t a k').get "transform".toList) = .ok m at hm
          cases hx : (XNode.elem ns t a k').get "transform".toList with
          | none => exact ⟨_, rfl⟩
          | some x =>
            rw [hx] at hm
            exact ⟨_, by simp only [parentLoop, hm, bind, Except.bind]; rfl⟩
  generalize tcncShapes env doc limit [] = x at key
  generalize tcncShapes env doc' limit [] = y at key
  cases key with
  | error e => rfl
  | ok l l' h =>
    show Except.ok _ = Except.ok _
    congr 1
    induction h with
    | nil => rfl
    | cons h _ ih => simp only [List.map_cons, ih, h.1.1.top, h.2]

end

/-! ## Layers made by tcnc -/

theorem redrawnTop_refl {K : Type} [PyTrig K] (env : NumEnv K) (k : List XNode) : RedrawnTop env k k := by
  induction k with
  | nil => exact .nil
  | cons n k ih => exact .cons n n k k (redrawn_refl env n) ih

theorem redrawnTop_append {K : Type} [PyTrig K] (env : NumEnv K) (k : List XNode) (n : XNode) (h : Harmless env n) : RedrawnTop env k (k ++ [n]) := by
  induction k with
  | nil => exact .added n [] [] h .nil
  | cons m k ih => exact .cons m m k _ (redrawn_refl env m) ih

/-- Specification: a drawing without references. -/
def NoRefs (doc : XNode) : Prop := ∀ b ∈ doc.places [], b.node.get "xlink:href".toList = none

theorem sameRefs_none {K : Type} [PyTrig K] (env : NumEnv K) {doc doc' : XNode} (h : NoRefs doc) : SameRefs env doc doc' := by
  intro b hb ref hr
  rw [h b hb] at hr; cases hr

/-- **C124**, a whole run: a layer whose name begins with `tcnc` and a space is made in a drawing with no layer of that name, anything is drawn in
it, and the drawing is written and read again: the next run cuts the same. -/
theorem C124_next_run (env : NumEnv ℝ) (hex : ∀ neg m e, env.ofDec neg m e = (if neg then -(m : ℝ) else m) * 10 ^ e) (fmtG : ℝ → Str) (h : ℝ) (n : Numeral)
    (hn : n.Valid) (ht : fmtG h = n.text) (doc : XNode) (hd : ∃ ns t a k, doc = .elem ns t a k) (hread : doc.reread = doc) (hrefs : NoRefs doc)
    (hroot : ∃ m, parseTransform env (doc.get "transform".toList) = .ok m) (limit : Nat) (hl : 0 < limit)
    (c : LayerArgs ℝ) (hc : c.incr = false) (hop : c.opacity = none) (hname : ∃ rest, c.name = "tcnc ".toList ++ rest)
    (hno : ∀ q, ¬ LayerAt doc q c.name) (k : List XNode) :
    ∃ L, createLayer fmtG h doc c = some L ∧
      cutList (tcncShapes env (doc.append (filled L.layer k)).reread limit []) = cutList (tcncShapes env doc limit []) := by
  obtain ⟨L, hL, hLn, hL'⟩ := C123_by_name fmtG h doc hd c hc
  rcases hL' with ⟨q, hq, -⟩ | ⟨-, -, hemp⟩
  · exact absurd hq.1 (hno q)
  refine ⟨L, hL, ?_⟩
  obtain ⟨⟨m, hm, -⟩, hst, -⟩ := C123_attributes env hex fmtG h n hn ht doc c L hL (by rw [hLn]; exact hno)
  have hvis : L.layer.get "visibility".toList = none := by
    have e : createLayer fmtG h doc c = some (layerUse fmtG h doc c c.name (findLayer doc c.name)) := by rw [createLayer, layerChoice, hc]; rfl
    rw [e] at hL
    injection hL with hL
    rcases findLayer_spec doc c.name with ⟨h1, -⟩ | ⟨a, q, -, -, -, h4, -⟩
    · rw [← hL, h1]
      show (layerAttrs fmtG h c c.name).lookup "visibility".toList = none
      obtain ⟨nm, o, cl, inc, fl, tg⟩ := c
      cases tg <;> cases o <;> cases fl <;> rfl
    · exact absurd h4.1 (hno q)
  cases hlay : L.layer with
  | comment => rw [hlay] at hemp; exact absurd hemp.1.1 (by simp [XNode.isGroup])
  | elem lns lt la lk =>
    rw [hlay] at hemp hm hst hvis
    obtain ⟨ns, t, a, ks, rfl⟩ := hd
    have hre : ((XNode.elem ns t a ks).append (filled (.elem lns lt la lk) k)).reread = .elem ns t a (ks ++ [.elem lns.reread lt la (rereadList k)]) := by
      simp only [XNode.reread, XNode.elem.injEq] at hread
      simp only [XNode.append, filled, XNode.reread, rereadList_eq, List.map_append, List.map_cons, List.map_nil, XNode.elem.injEq, true_and]
      refine ⟨hread.1, ?_⟩
      have := hread.2.2.2
      rw [rereadList_eq] at this
      rw [this]
    rw [hre]
    refine C124_same_cut env _ _ limit hl ⟨ns, t, a, ks, _, rfl, rfl, redrawnTop_append env ks _ ⟨?_, ?_, ?_, m, hm⟩⟩ (sameRefs_none env hrefs) hroot
    · obtain ⟨rest, hrest⟩ := hname
      refine .inl ⟨rest, ?_, by rw [← hrest]; exact hemp.1.2⟩
      have hg := hemp.1.1
      unfold XNode.isGroup at hg ⊢
      cases lns <;> simp_all [Ns.reread]
    · exact hst hop
    · exact hvis

/-! ## Examples -/

/-- Non-vacuity of `C124_same_cut`: another path in the preview of `docP`, and the debug layer. -/
example (env : NumEnv ℝ) : ∃ doc', RedrawnDoc env docP doc' ∧ doc' ≠ docP ∧ cutList (tcncShapes env doc' 3 []) = cutList (tcncShapes env docP 3 []) := by
  have hd : RedrawnDoc env docP (el "svg" [] [
      el "g" [at' "id" "l1", at' "inkscape:label" "Layer 1"] [el "path" [at' "id" "p1"] []],
      el "g" [at' "id" "l2", at' "inkscape:label" "tcnc preview: tool path"] [el "path" [at' "id" "p5"] [], el "path" [at' "id" "p6"] []],
      el "g" [at' "id" "l3", at' "inkscape:label" "subpaths (tcnc)"] [el "path" [at' "id" "p3"] []],
      el "g" [at' "id" "l4", at' "inkscape:label" "tcnc test piece"] [el "path" [at' "id" "p4"] []],
      el "g" [at' "inkscape:label" "gcodesvg debug"] []]) := by
    refine ⟨.svg, "svg".toList, [], _, _, rfl, rfl, ?_⟩
    refine .cons _ _ _ _ (redrawn_refl env _) (.cons _ _ _ _ (.own _ _ _ _ _ ⟨"preview: tool path".toList, rfl, rfl⟩)
      (.cons _ _ _ _ (redrawn_refl env _) (.cons _ _ _ _ (redrawn_refl env _) (.added _ _ _ ⟨.inr ⟨rfl, rfl⟩, rfl, rfl, ⟨_, rfl⟩⟩ .nil))))
  refine ⟨_, hd, by simp [docP, el], C124_same_cut env _ _ 3 (by decide) hd (sameRefs_none env ?_) ⟨_, rfl⟩⟩
  intro b hb
  simp only [docP, el, placesList, XNode.places, List.mem_append, List.mem_cons, List.not_mem_nil, or_false] at hb
  rcases hb with rfl | (rfl | rfl) | (rfl | rfl) | (rfl | rfl) | (rfl | rfl) <;> rfl

/-- Non-vacuity of `C124_next_run`: the drawing is as it was read, without references and without a debug layer. -/
example : docP.reread = docP ∧ NoRefs docP ∧ ∀ q, ¬ LayerAt docP q "tcnc debug".toList := by
  refine ⟨rfl, ?_, ?_⟩
  · intro b hb
    simp only [docP, el, placesList, XNode.places, List.mem_append, List.mem_cons, List.not_mem_nil, or_false] at hb
    rcases hb with rfl | (rfl | rfl) | (rfl | rfl) | (rfl | rfl) | (rfl | rfl) <;> rfl
  · rcases findLayer_spec docP "tcnc debug".toList with ⟨-, h2⟩ | ⟨a, r, h1, -⟩
    · exact h2
    · have : (findLayer docP "tcnc debug".toList).isNone = true := by decide +kernel
      rw [h1] at this; cases this

/-- **C124**, without the condition on references: a reference into the preview is followed, so that what is cut can change. -/
theorem C124_refuted_reference :
    (tcncShapes exactQ (el "svg" [] [el "use" [at' "xlink:href" "#path1"] []]) 3 []).toOption.map List.length = some 0 ∧
    (tcncShapes exactQ (el "svg" [] [el "use" [at' "xlink:href" "#path1"] [],
      el "g" [at' "inkscape:label" "tcnc preview: tool path"] [el "path" [at' "id" "path1"] []]]) 3 []).toOption.map List.length = some 1 := by
  decide +kernel

end Verif.Svg
