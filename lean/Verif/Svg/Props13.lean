import Verif.Svg.Tree
import Verif.Svg.Props8

/-!
# C111–C113: collecting the shapes of a document
-/

set_option linter.unusedSectionVars false

namespace Verif.Svg
open Verif PyFloat PyTrig Geom Css

/-! ## Lists -/

theorem concatM_ok {α β : Type} {f : α → Except PyErr (List β)} {g : α → List β} {l : List α} (h : ∀ a ∈ l, f a = .ok (g a)) :
    concatM f l = .ok (l.flatMap g) := by
  induction l with
  | nil => rfl
  | cons a l ih =>
    rw [concatM, h a (by simp), ih (fun b hb => h b (by simp [hb]))]
    rfl

theorem concatM_exists {α β : Type} {f : α → Except PyErr (List β)} {l : List α} (h : ∀ a ∈ l, ∃ r, f a = .ok r) :
    ∃ g : α → List β, (∀ a ∈ l, f a = .ok (g a)) ∧ concatM f l = .ok (l.flatMap g) := by
  refine ⟨fun a => match f a with | .ok r => r | .error _ => [], ?_, ?_⟩
  · intro a ha
    obtain ⟨r, hr⟩ := h a ha
    simp only [hr]
  · refine concatM_ok ?_
    intro a ha
    obtain ⟨r, hr⟩ := h a ha
    simp only [hr]

theorem placesList_eq (up : List XNode) (ks : List XNode) : placesList up ks = ks.flatMap (fun k => k.places up) := by
  induction ks with
  | nil => rfl
  | cons k ks ih => rw [placesList, ih]; rfl

/-- Every descendant has the ancestors of the list, and some more. -/
theorem places_up (n : XNode) : ∀ up, ∀ b ∈ n.places up, ∃ mids, b.chain = mids ++ n :: up := by
  refine XNode.rec (motive_1 := fun n => ∀ up, ∀ b ∈ n.places up, ∃ mids, b.chain = mids ++ n :: up)
    (motive_2 := fun ks => ∀ up, ∀ b ∈ placesList up ks, ∃ mids, b.up = mids ++ up) ?_ ?_ ?_ ?_ n
  · intro ns t a ks ih up b hb
    rw [XNode.places] at hb
    rcases List.mem_cons.1 hb with rfl | hb
    · exact ⟨[], rfl⟩
    · obtain ⟨mids, hm⟩ := ih _ b hb
      exact ⟨b.node :: mids, by unfold At.chain; rw [hm]; rfl⟩
  · intro up b hb
    rw [XNode.places, List.mem_singleton] at hb
    subst hb
    exact ⟨[], rfl⟩
  · intro up b hb
    simp [placesList] at hb
  · intro k ks ih1 ih2 up b hb
    rw [placesList] at hb
    rcases List.mem_append.1 hb with hb | hb
    · obtain ⟨mids, hm⟩ := ih1 up b hb
      cases mids with
      | nil =>
        unfold At.chain at hm
        simp only [List.nil_append, List.cons.injEq] at hm
        exact ⟨[], hm.2⟩
      | cons x mids =>
        unfold At.chain at hm
        simp only [List.cons_append, List.cons.injEq] at hm
        exact ⟨mids ++ [k], by rw [hm.2]; simp⟩
    · exact ih2 up b hb

theorem placesList_up {up : List XNode} {ks : List XNode} {b : At} (hb : b ∈ placesList up ks) : ∃ mids, b.up = mids ++ up := by
  rw [placesList_eq, List.mem_flatMap] at hb
  obtain ⟨k, -, hb⟩ := hb
  obtain ⟨mids, hm⟩ := places_up k up b hb
  cases mids with
  | nil =>
    unfold At.chain at hm
    simp only [List.nil_append, List.cons.injEq] at hm
    exact ⟨[], hm.2⟩
  | cons x mids =>
    unfold At.chain at hm
    simp only [List.cons_append, List.cons.injEq] at hm
    exact ⟨mids ++ [k], by rw [hm.2]; simp⟩

theorem places_eq (a : At) : a.node.places a.up = a :: placesList (a.node :: a.up) a.node.kids := by
  obtain ⟨n, up⟩ := a
  cases n with
  | elem ns t at' ks => rfl
  | comment => rfl

/-! ## Visibility -/

theorem off_inherit {n : Node} (hg : GoodStyle n) (h : Asks n "inherit") : Off n ↔ HasStyle n "display" "none" := by
  obtain ⟨d, hd⟩ := hg
  constructor
  · rintro (h1 | h1 | h1)
    · exact h1
    · rw [asks_iff hd] at h h1
      rw [h] at h1
      exact absurd (Option.some.inj h1) (by decide)
    · rw [asks_iff hd] at h h1
      rw [h] at h1
      exact absurd (Option.some.inj h1) (by decide)
  · exact fun h1 => .inl h1

/-- An element below visible ancestors is visible exactly if it is not switched off. -/
theorem visible_below {n : Node} {up : List Node} (hg : ∀ m ∈ n :: up, GoodStyle m) (hup : ∀ m ∈ up, ¬ Off m) :
    ∃ b, nodeVisible false false (n :: up) = .ok b ∧ (b = false ↔ Off n) := by
  obtain ⟨b, h1, h2, h3⟩ := C76_visible_alone n up hg
  refine ⟨b, h1, ?_⟩
  by_cases hi : Asks n "inherit"
  · rw [h3 hi, off_inherit (hg n (by simp)) hi]
    constructor
    · rintro (h | ⟨m, hm, h⟩)
      · exact h
      · exact absurd h (hup m hm)
    · exact fun h => .inl h
  · exact h2 hi

/-! ## Specification -/

/-- Specification: the element is one of the shapes asked for (groups and references never are). -/
def IsShape (c : Flat) (n : XNode) : Prop :=
  n.isGroup = false ∧ n.isUse = false ∧ ∃ ns tag attr kids, n = .elem ns tag attr kids ∧ tag ∈ c.shapes

/-- Specification: a group that is not a layer to skip. -/
def Open (c : Flat) (n : XNode) : Prop := n.isGroup = true ∧ c.skips n = false

/-- Specification: the element `b` is drawn as part of the element `R`: it is a shape; everything between is a group that is not to be skipped; and
neither the element nor any of its ancestors is switched off. -/
def Shown (c : Flat) (R b : At) : Prop :=
  IsShape c b.node ∧ (∃ mids, b.up = mids ++ R.chain ∧ ∀ m ∈ mids, Open c m) ∧ ∀ m ∈ b.chain, ¬ Off m.toNode

/-- Specification: an element whose style and transform can be parsed and that is neither a comment nor a reference. -/
def Tame {K : Type} [PyTrig K] (env : NumEnv K) (n : XNode) : Prop :=
  n ≠ .comment ∧ n.isUse = false ∧ GoodStyle n.toNode ∧ ∃ m, parseTransform env (n.get "transform".toList) = .ok m

/-- Drawn below a list of ancestors. -/
def Below (c : Flat) (up : List XNode) (b : At) : Prop :=
  IsShape c b.node ∧ ∃ mids, b.up = mids ++ up ∧ (∀ m ∈ mids, Open c m) ∧ ∀ m ∈ b.node :: mids, ¬ Off m.toNode

open Classical in
/-- What is drawn of a node: itself if it is a shape, or what is drawn of its children if it is an open group. -/
theorem below_places (c : Flat) (a : At) :
    (a.node.places a.up).filter (fun b => decide (Below c a.up b)) =
      if Off a.node.toNode then []
      else if Open c a.node then (placesList (a.node :: a.up) a.node.kids).filter (fun b => decide (Below c (a.node :: a.up) b))
      else if IsShape c a.node then [a] else [] := by
  have hself : Below c a.up a ↔ IsShape c a.node ∧ ¬ Off a.node.toNode := by
    unfold Below
    constructor
    · rintro ⟨h1, mids, h2, -, h4⟩
      exact ⟨h1, h4 _ (by simp)⟩
    · rintro ⟨h1, h2⟩
      exact ⟨h1, [], rfl, by simp, by simpa using h2⟩
  have hdesc : ∀ b ∈ placesList (a.node :: a.up) a.node.kids,
      (Below c a.up b ↔ Open c a.node ∧ ¬ Off a.node.toNode ∧ Below c (a.node :: a.up) b) := by
    intro b hb
    obtain ⟨mids, hm⟩ := placesList_up hb
    unfold Below
    constructor
    · rintro ⟨h1, mids', h2, h3, h4⟩
      have : mids' = mids ++ [a.node] := by
        rw [hm] at h2
        have h5 : (mids ++ [a.node]) ++ a.up = mids' ++ a.up := by simpa using h2
        exact (List.append_cancel_right h5).symm
      subst this
      refine ⟨h3 _ (by simp), h4 _ (by simp), h1, mids, hm, fun m h => h3 m (by simp [h]), fun m h => ?_⟩
      rcases List.mem_cons.1 h with rfl | h
      · exact h4 _ (by simp)
      · exact h4 m (by simp [h])
    · rintro ⟨h1, h2, h3, mids', h4, h5, h6⟩
      refine ⟨h3, mids' ++ [a.node], by rw [h4]; simp, ?_, ?_⟩
      · intro m hm'
        rcases List.mem_append.1 hm' with hm' | hm'
        · exact h5 m hm'
        · rw [List.mem_singleton.1 hm']; exact h1
      · intro m hm'
        rcases List.mem_cons.1 hm' with rfl | hm'
        · exact h6 _ (by simp)
        · rcases List.mem_append.1 hm' with hm' | hm'
          · exact h6 m (by simp [hm'])
          · rw [List.mem_singleton.1 hm']; exact h2
  rw [places_eq, List.filter_cons]
  by_cases hoff : Off a.node.toNode
  · rw [if_pos hoff, if_neg (by simp [hself, hoff])]
    rw [List.filter_eq_nil_iff]
    intro b hb
    rw [decide_eq_true_eq, hdesc b hb]
    exact fun h => h.2.1 hoff
  · rw [if_neg hoff]
    by_cases hop : Open c a.node
    · rw [if_pos hop, if_neg]
      · apply List.filter_congr
        intro b hb
        rw [decide_eq_decide, hdesc b hb]
        exact ⟨fun h => h.2.2, fun h => ⟨hop, hoff, h⟩⟩
      · rw [decide_eq_true_eq, hself]
        rintro ⟨h, -⟩
        exact absurd hop.1 (by rw [h.1]; simp)
    · rw [if_neg hop]
      have hnil : (placesList (a.node :: a.up) a.node.kids).filter (fun b => decide (Below c a.up b)) = [] := by
        rw [List.filter_eq_nil_iff]
        intro b hb
        rw [decide_eq_true_eq, hdesc b hb]
        exact fun h => hop h.1
      rw [hnil]
      by_cases hs : IsShape c a.node
      · rw [if_pos hs, if_pos (by rw [decide_eq_true_eq, hself]; exact ⟨hs, hoff⟩)]
      · rw [if_neg hs, if_neg (by rw [decide_eq_true_eq, hself]; exact fun h => hs h.1)]

/-! ## Transforms -/

theorem parentLoop_compose (env : NumEnv ℝ) (as : List (Option Str)) : ∀ m : Mat ℝ,
    parentLoop env m as = (match parentLoop env Mat.ident as with | .ok r => .ok (r.compose m) | .error e => .error e) := by
  induction as with
  | nil => intro m; simp only [parentLoop]; rw [(C41_compose m m m ⟨0, 0⟩).2.2.2.1]
  | cons a as ih =>
    intro m
    cases a with
    | none => simp only [parentLoop]; exact ih m
    | some s =>
      simp only [parentLoop]
      cases hp : parseTransform env (some s) with
      | error e => rfl
      | ok pm =>
        simp only [bind, Except.bind]
        rw [ih (pm.compose m), ih (pm.compose Mat.ident)]
        cases parentLoop env Mat.ident as with
        | error e => rfl
        | ok r => simp only; rw [(C41_compose pm m m ⟨0, 0⟩).2.2.1, (C41_compose r pm m ⟨0, 0⟩).2.1]

/-- The transform of the ancestors, from the outside to the inside. -/
theorem parentTransform_cons (env : NumEnv ℝ) {x : Option Str} {up : List (Option Str)} {T own : Mat ℝ} (h : parentTransform env up = .ok T)
    (ho : parseTransform env x = .ok own) : parentTransform env (x :: up) = .ok (T.compose own) := by
  unfold parentTransform at h ⊢
  cases x with
  | none =>
    have : own = Mat.ident := by
      have h2 : parseTransform env none = .ok (Mat.ident : Mat ℝ) := rfl
      rw [h2] at ho
      injection ho with ho
      exact ho.symm
    simp only [parentLoop]
    rw [h, this, (C41_compose T T T ⟨0, 0⟩).2.2.1]
  | some s =>
    simp only [parentLoop, ho, bind, Except.bind]
    rw [parentLoop_compose, h, (C41_compose own own own ⟨0, 0⟩).2.2.1]

/-- The transform of an element in terms of that of its ancestors. -/
theorem elementTransform_of (env : NumEnv ℝ) {x : Option Str} {up : List (Option Str)} {T own : Mat ℝ} (h : parentTransform env up = .ok T)
    (ho : parseTransform env x = .ok own) : elementTransform env x up = .ok (T.compose own) := by
  unfold elementTransform
  rw [h]
  cases x with
  | none =>
    have : own = Mat.ident := by
      have h2 : parseTransform env none = .ok (Mat.ident : Mat ℝ) := rfl
      rw [h2] at ho
      injection ho with ho
      exact ho.symm
    rw [this, (C41_compose T T T ⟨0, 0⟩).2.2.1]
    rfl
  | some s =>
    by_cases he : s.isEmpty = true
    · have h0 : s = [] := by simpa using he
      subst h0
      have : own = Mat.ident := by
        have h2 : parseTransform env (some []) = .ok (Mat.ident : Mat ℝ) := rfl
        rw [h2] at ho
        injection ho with ho
        exact ho.symm
      rw [this, (C41_compose T T T ⟨0, 0⟩).2.2.1]
      rfl
    · show (if s.isEmpty = true then _ else _) = _
      rw [if_neg he, ho]
      rfl

/-! ## The traversal -/

theorem flatNode_group {K : Type} [PyTrig K] (env : NumEnv K) (doc : XNode) (c : Flat) (hc : c.accumulate = true) (n : Nat) (pT : Option (Mat K)) (T own : Mat K) (chk : Bool) (a : At)
    (hT : pT = some T ∨ pT = none ∧ parentTransform env (a.up.map fun x : XNode => x.get "transform".toList) = .ok T)
    (hv : nodeVisible chk false (a.chain.map XNode.toNode) = .ok true) (ho : parseTransform env (a.node.get "transform".toList) = .ok own) :
    flatNode env doc c (n + 1) pT chk a =
      if a.node.isGroup then
        if c.skips a.node then .ok [] else concatM (flatNode env doc c n (some (T.compose own)) false) a.kids
      else if a.node.isUse then
        match a.node.get "xlink:href".toList with
        | some ref =>
          if ref.isEmpty then .ok []
          else match byId doc (ref.drop 1) with
            | some r => do
              let x ← a.node.num env "x".toList
              let y ← a.node.num env "y".toList
              let t' := if isZeroF x && isZeroF y then T.compose own else (T.compose own).compose (Mat.translate x y)
              flatNode env doc c n (some t') false r
            | none => .ok []
        | none => .ok []
      else
        match a.node with
        | .comment => .error .attributeError
        | .elem _ tag _ _ => .ok (if tag ∈ c.shapes then [(a, T.compose own)] else []) := by
  rw [flatNode]
  rcases hT with rfl | ⟨rfl, h⟩
  · simp only [hv, bind, Except.bind, Bool.not_true, Bool.false_eq_true, if_false, ho, hc, if_true, pure, Except.pure]
    rfl
  · simp only [hv, h, bind, Except.bind, Bool.not_true, Bool.false_eq_true, if_false, ho, hc, if_true, pure, Except.pure]
    rfl

theorem flatNode_off {K : Type} [PyTrig K] (env : NumEnv K) (doc : XNode) (c : Flat) (n : Nat) (pT : Option (Mat K)) (chk : Bool) (a : At)
    (hv : nodeVisible chk false (a.chain.map XNode.toNode) = .ok false) : flatNode env doc c (n + 1) pT chk a = .ok [] := by
  rw [flatNode]
  simp only [hv, bind, Except.bind, Bool.not_false, if_true, pure, Except.pure]

open Classical in
/-- The traversal of a subtree without comments and references. -/
theorem flatNode_tame (env : NumEnv ℝ) (doc : XNode) (c : Flat) (hc : c.accumulate = true) : ∀ (n : Nat) (a : At) (pT : Option (Mat ℝ)) (T : Mat ℝ),
    parentTransform env (a.up.map fun x : XNode => x.get "transform".toList) = .ok T → (pT = some T ∨ pT = none) →
    (∀ m ∈ a.up, GoodStyle m.toNode ∧ ¬ Off m.toNode) → (∀ b ∈ a.node.places a.up, Tame env b.node ∧ b.up.length < a.up.length + n) →
    ∃ l, flatNode env doc c n pT false a = .ok l ∧ l.map (·.1) = (a.node.places a.up).filter (fun b => decide (Below c a.up b)) ∧
      ∀ x ∈ l, elementTransform env (x.1.node.get "transform".toList) (x.1.up.map fun y : XNode => y.get "transform".toList) = .ok x.2 := by
  intro n
  induction n with
  | zero =>
    intro a pT T _ _ _ hwf
    have := (hwf a (by rw [places_eq]; simp)).2
    omega
  | succ n ih =>
    intro a pT T hT hpT hup hwf
    obtain ⟨hcom, huse, hgs, own, hown⟩ := (hwf a (by rw [places_eq]; simp)).1
    obtain ⟨v, hv, hvo⟩ := visible_below (n := a.node.toNode) (up := a.up.map XNode.toNode)
      (by
        intro m hm
        rcases List.mem_cons.1 hm with rfl | hm
        · exact hgs
        · obtain ⟨x, hx, rfl⟩ := List.mem_map.1 hm; exact (hup x hx).1)
      (by intro m hm; obtain ⟨x, hx, rfl⟩ := List.mem_map.1 hm; exact (hup x hx).2)
    have hchain : a.chain.map XNode.toNode = a.node.toNode :: a.up.map XNode.toNode := rfl
    rw [← hchain] at hv
    rw [below_places]
    cases v with
    | false =>
      refine ⟨[], flatNode_off env doc c n pT false a hv, ?_, by simp⟩
      rw [if_pos (hvo.1 rfl)]; rfl
    | true =>
      have hon : ¬ Off a.node.toNode := fun h => absurd (hvo.2 h) (by simp)
      rw [if_neg hon]
      have hTc := parentTransform_cons env hT hown
      rw [flatNode_group env doc c hc n pT T own false a (by rcases hpT with h | h; exacts [.inl h, .inr ⟨h, hT⟩]) hv hown]
      by_cases hg : a.node.isGroup = true
      · rw [if_pos hg]
        by_cases hsk : c.skips a.node = true
        · rw [if_pos hsk]
          refine ⟨[], rfl, ?_, by simp⟩
          rw [if_neg (fun h => by rw [h.2] at hsk; cases hsk), if_neg (fun h => by rw [h.1] at hg; cases hg)]
          rfl
        · rw [if_neg hsk]
          have hop : Open c a.node := ⟨hg, by simpa using hsk⟩
          rw [if_pos hop]
          have hk : ∀ k ∈ a.kids, ∃ l, flatNode env doc c n (some (T.compose own)) false k = .ok l ∧
              l.map (·.1) = (k.node.places k.up).filter (fun b => decide (Below c k.up b)) ∧
              ∀ x ∈ l, elementTransform env (x.1.node.get "transform".toList) (x.1.up.map fun y : XNode => y.get "transform".toList) = .ok x.2 := by
            intro k hk
            obtain ⟨x, hx, rfl⟩ := List.mem_map.1 hk
            refine ih _ _ (T.compose own) hTc (.inl rfl) ?_ ?_
            · intro m hm
              rcases List.mem_cons.1 hm with rfl | hm
              · exact ⟨hgs, hon⟩
              · exact hup m hm
            · intro b hb
              have hb' : b ∈ a.node.places a.up := by
                rw [places_eq, placesList_eq]
                refine List.mem_cons_of_mem _ (List.mem_flatMap.2 ⟨x, hx, hb⟩)
              refine ⟨(hwf b hb').1, ?_⟩
              have := (hwf b hb').2
              show b.up.length < (a.up.length + 1) + n
              omega
          obtain ⟨g, hg1, hg2⟩ := concatM_exists (l := a.kids) (f := flatNode env doc c n (some (T.compose own)) false)
            (fun k hk' => let ⟨l, h, _⟩ := hk k hk'; ⟨l, h⟩)
          have hg3 : ∀ k ∈ a.kids, (g k).map (·.1) = (k.node.places k.up).filter (fun b => decide (Below c k.up b)) ∧
              ∀ x ∈ g k, elementTransform env (x.1.node.get "transform".toList) (x.1.up.map fun y : XNode => y.get "transform".toList) = .ok x.2 := by
            intro k hk'
            obtain ⟨l, h1, h2⟩ := hk k hk'
            rw [hg1 k hk'] at h1
            injection h1 with h1
            rw [h1]; exact h2
          refine ⟨_, hg2, ?_, ?_⟩
          · rw [placesList_eq, List.map_flatMap, List.filter_flatMap]
            unfold At.kids
            rw [List.flatMap_map]
            refine List.flatMap_congr ?_
            intro x hx
            exact (hg3 ⟨x, a.node :: a.up⟩ (List.mem_map.2 ⟨x, hx, rfl⟩)).1
          · intro x hx
            obtain ⟨k, hk', hx⟩ := List.mem_flatMap.1 hx
            exact (hg3 k hk').2 x hx
      · rw [if_neg hg, huse, if_neg (by simp), if_neg (fun h => hg h.1)]
        obtain ⟨node, up⟩ := a
        cases node with
        | comment => exact absurd rfl hcom
        | elem ns tag attr kids =>
          have hsh : IsShape c (.elem ns tag attr kids) ↔ tag ∈ c.shapes := by
            constructor
            · rintro ⟨-, -, ns', tag', attr', kids', h, h'⟩; cases h; exact h'
            · intro h; exact ⟨by simpa using hg, huse, ns, tag, attr, kids, rfl, h⟩
          dsimp only
          by_cases hs : tag ∈ c.shapes
          · rw [if_pos hs, if_pos (hsh.2 hs)]
            refine ⟨_, rfl, rfl, ?_⟩
            intro x hx
            rw [List.mem_singleton.1 hx]
            exact elementTransform_of env hT hown
          · rw [if_neg hs, if_neg (fun h => hs (hsh.1 h))]
            exact ⟨_, rfl, rfl, by simp⟩

/-- The transform of ancestors that can be parsed. -/
theorem parentTransform_ok (env : NumEnv ℝ) (l : List XNode) (h : ∀ m ∈ l, ∃ t, parseTransform env (m.get "transform".toList) = .ok t) :
    ∃ T : Mat ℝ, parentTransform env (l.map fun x : XNode => x.get "transform".toList) = .ok T := by
  induction l with
  | nil => exact ⟨_, rfl⟩
  | cons a l ih =>
    obtain ⟨T, hT⟩ := ih (fun m hm => h m (by simp [hm]))
    obtain ⟨own, ho⟩ := h a (by simp)
    exact ⟨_, parentTransform_cons env hT ho⟩

open Classical in
/-- **C111**, documents without comments and references: for every element (the document root or a layer, with any ancestors) and every subtree
below it that is no deeper than the recursion limit, the result is exactly the list of the drawn shapes (shapes all of whose ancestors below the
element are groups that are not to be skipped, and that are not switched off, nor any of their ancestors), in document order, each once, with the
transform of the element as SVG composes it (`get_element_transform`, C77).  Missing: comments and references
(`C111_refuted_comment`, C112). -/
theorem C111_shapes_partial (env : NumEnv ℝ) (doc : XNode) (c : Flat) (hc : c.accumulate = true) (limit : Nat) (R : At)
    (hR : ∀ m ∈ R.chain, GoodStyle m.toNode ∧ ∃ t, parseTransform env (m.get "transform".toList) = .ok t)
    (hwf : ∀ b ∈ placesList R.chain R.node.kids, Tame env b.node ∧ b.up.length ≤ R.up.length + limit) :
    ∃ l, shapesOf env doc c limit none R = .ok l ∧
      l.map (·.1) = (placesList R.chain R.node.kids).filter (fun b => decide (Shown c R b)) ∧
      ∀ x ∈ l, elementTransform env (x.1.node.get "transform".toList) (x.1.up.map fun y : XNode => y.get "transform".toList) = .ok x.2 := by
  obtain ⟨v, hv, hvo⟩ := C76_visible R.node.toNode (R.up.map XNode.toNode) (by
    intro m hm
    rcases List.mem_cons.1 hm with rfl | hm
    · exact (hR _ (by simp [At.chain])).1
    · obtain ⟨x, hx, rfl⟩ := List.mem_map.1 hm; exact (hR x (by simp [At.chain, hx])).1)
  have hchain : R.chain.map XNode.toNode = R.node.toNode :: R.up.map XNode.toNode := rfl
  rw [← hchain] at hv hvo
  unfold shapesOf
  rw [hv]
  cases v with
  | false =>
    refine ⟨[], rfl, ?_, by simp⟩
    obtain ⟨m, hm, hoff⟩ := hvo.1 rfl
    obtain ⟨x, hx, rfl⟩ := List.mem_map.1 hm
    symm
    rw [List.map_nil, List.filter_eq_nil_iff]
    intro b hb
    rw [decide_eq_true_eq]
    rintro ⟨-, ⟨mids, h1, -⟩, h2⟩
    refine h2 x ?_ hoff
    unfold At.chain
    rw [h1]
    exact List.mem_cons_of_mem _ (List.mem_append_right _ hx)
  | true =>
    have hon : ∀ m ∈ R.chain, ¬ Off m.toNode := by
      intro m hm h
      have := hvo.2 ⟨_, List.mem_map.2 ⟨m, hm, rfl⟩, h⟩
      cases this
    simp only [bind, Except.bind, Bool.not_true, Bool.false_eq_true, if_false]
    obtain ⟨T, hT⟩ := parentTransform_ok env R.chain (fun m hm => (hR m hm).2)
    have hk : ∀ k ∈ R.kids, ∃ l, flatNode env doc c limit none false k = .ok l ∧
        l.map (·.1) = (k.node.places k.up).filter (fun b => decide (Below c k.up b)) ∧
        ∀ x ∈ l, elementTransform env (x.1.node.get "transform".toList) (x.1.up.map fun y : XNode => y.get "transform".toList) = .ok x.2 := by
      intro k hk
      obtain ⟨x, hx, rfl⟩ := List.mem_map.1 hk
      refine flatNode_tame env doc c hc limit _ none T hT (.inr rfl) ?_ ?_
      · intro m hm
        exact ⟨(hR m hm).1, hon m hm⟩
      · intro b hb
        have hb' : b ∈ placesList R.chain R.node.kids := by
          rw [placesList_eq]
          exact List.mem_flatMap.2 ⟨x, hx, hb⟩
        refine ⟨(hwf b hb').1, ?_⟩
        have := (hwf b hb').2
        show b.up.length < (R.up.length + 1) + limit
        omega
    obtain ⟨g, hg1, hg2⟩ := concatM_exists (l := R.kids) (f := flatNode env doc c limit none false)
      (fun k hk' => let ⟨l, h, _⟩ := hk k hk'; ⟨l, h⟩)
    have hg3 : ∀ k ∈ R.kids, (g k).map (·.1) = (k.node.places k.up).filter (fun b => decide (Below c k.up b)) ∧
        ∀ x ∈ g k, elementTransform env (x.1.node.get "transform".toList) (x.1.up.map fun y : XNode => y.get "transform".toList) = .ok x.2 := by
      intro k hk'
      obtain ⟨l, h1, h2⟩ := hk k hk'
      rw [hg1 k hk'] at h1
      injection h1 with h1
      rw [h1]; exact h2
    refine ⟨_, hg2, ?_, ?_⟩
    · have hBS : ∀ b ∈ placesList R.chain R.node.kids, (decide (Shown c R b)) = decide (Below c R.chain b) := by
        intro b hb
        rw [decide_eq_decide]
        constructor
        · rintro ⟨h1, ⟨mids, h2, h3⟩, h4⟩
          refine ⟨h1, mids, h2, h3, fun m hm => h4 m ?_⟩
          unfold At.chain
          rw [h2]
          rcases List.mem_cons.1 hm with rfl | hm
          · simp
          · exact List.mem_cons_of_mem _ (List.mem_append_left _ hm)
        · rintro ⟨h1, mids, h2, h3, h4⟩
          refine ⟨h1, ⟨mids, h2, h3⟩, fun m hm => ?_⟩
          unfold At.chain at hm
          rw [h2] at hm
          rcases List.mem_cons.1 hm with rfl | hm
          · exact h4 _ (by simp)
          · rcases List.mem_append.1 hm with hm | hm
            · exact h4 m (by simp [hm])
            · exact hon m hm
      rw [List.filter_congr hBS, placesList_eq, List.map_flatMap, List.filter_flatMap]
      unfold At.kids
      rw [List.flatMap_map]
      refine List.flatMap_congr ?_
      intro x hx
      exact (hg3 ⟨x, R.node :: R.up⟩ (List.mem_map.2 ⟨x, hx, rfl⟩)).1
    · intro x hx
      obtain ⟨k, hk', hx⟩ := List.mem_flatMap.1 hx
      exact (hg3 k hk').2 x hx

end Verif.Svg
