import Verif.Svg.Props13

/-!
# C112: references (`<use>`) while collecting shapes
-/

set_option linter.unusedSectionVars false

namespace Verif.Svg
open Verif PyFloat PyTrig Geom Css

/-! ## Specification -/

/-- Specification: the element is drawn unless it is switched off; an element that asks to inherit its visibility looks at its ancestors. -/
def Seen (a : At) : Prop :=
  ¬ Off a.node.toNode ∧ (Asks a.node.toNode "inherit" → ∀ m ∈ a.up, ¬ Off m.toNode)

/-- Specification: the element refers to the element `r` of the document, moved by `(x, y)`: `xlink:href` is one character (`#`) and the id of the
first such element; a missing `x` or `y` is 0. -/
def RefersTo {K : Type} [PyTrig K] (env : NumEnv K) (doc n : XNode) (r : At) (x y : K) : Prop :=
  n.isGroup = false ∧ n.isUse = true ∧ (∃ ch id, n.get "xlink:href".toList = some (ch :: id) ∧ byId doc id = some r) ∧
  n.num env "x".toList = .ok x ∧ n.num env "y".toList = .ok y

/-- Specification: drawing the element `a` in a coordinate system `T` draws the shape `x.1` in the coordinate system `x.2`.  A shape is drawn with its
own transform applied first; a group draws its children in its own coordinate system; a reference draws what it refers to, moved by
`(x, y)` in its own coordinate system (SVG 1.1, 5.6). -/
inductive DrawnBy (env : NumEnv ℝ) (doc : XNode) (c : Flat) : Mat ℝ → At → At × Mat ℝ → Prop
  | shape (T own : Mat ℝ) (a : At) : Seen a → parseTransform env (a.node.get "transform".toList) = .ok own → IsShape c a.node →
      DrawnBy env doc c T a (a, T.compose own)
  | group (T own : Mat ℝ) (a k : At) (s : At × Mat ℝ) : Seen a → parseTransform env (a.node.get "transform".toList) = .ok own → Open c a.node →
      k ∈ a.kids → DrawnBy env doc c (T.compose own) k s → DrawnBy env doc c T a s
  | use (T own : Mat ℝ) (a r : At) (x y : ℝ) (s : At × Mat ℝ) : Seen a → parseTransform env (a.node.get "transform".toList) = .ok own →
      RefersTo env doc a.node r x y → DrawnBy env doc c ((T.compose own).compose (Mat.translate x y)) r s → DrawnBy env doc c T a s

/-! ## Visibility of an element alone -/

/-- The test for an element alone. -/
theorem visible_seen {a : At} {v : Bool} (hg : ∀ m ∈ a.chain, GoodStyle m.toNode)
    (hv : nodeVisible false false (a.chain.map XNode.toNode) = .ok v) : v = true ↔ Seen a := by
  obtain ⟨b, h1, h2, h3⟩ := C76_visible_alone a.node.toNode (a.up.map XNode.toNode) (by
    intro m hm
    rcases List.mem_cons.1 hm with rfl | hm
    · exact hg _ (by simp [At.chain])
    · obtain ⟨x, hx, rfl⟩ := List.mem_map.1 hm; exact hg x (by simp [At.chain, hx]))
  have hb : v = b := by
    have hchain : a.chain.map XNode.toNode = a.node.toNode :: a.up.map XNode.toNode := rfl
    rw [hchain, h1] at hv
    injection hv with hv
    exact hv.symm
  subst hb
  have hgn : GoodStyle a.node.toNode := hg _ (by simp [At.chain])
  unfold Seen
  by_cases hi : Asks a.node.toNode "inherit"
  · have := h3 hi
    rw [← off_inherit hgn hi] at this
    constructor
    · rintro rfl
      constructor
      · intro h; exact absurd (this.2 (.inl h)) (by simp)
      · intro _ m hm h
        exact absurd (this.2 (.inr ⟨_, List.mem_map.2 ⟨m, hm, rfl⟩, h⟩)) (by simp)
    · rintro ⟨h4, h5⟩
      rcases Bool.eq_false_or_eq_true v with hv' | hv'
      · exact hv'
      · rcases this.1 hv' with h | ⟨m, hm, h⟩
        · exact absurd h h4
        · obtain ⟨x, hx, rfl⟩ := List.mem_map.1 hm
          exact absurd h (h5 hi x hx)
  · have := h2 hi
    constructor
    · rintro rfl
      exact ⟨fun h => absurd (this.2 h) (by simp), fun h => absurd h hi⟩
    · rintro ⟨h4, -⟩
      rcases Bool.eq_false_or_eq_true v with hv' | hv'
      · exact hv'
      · exact absurd (this.1 hv') h4

/-! ## More recursion changes nothing -/

theorem concatM_mem {α β : Type} {f : α → Except PyErr (List β)} : ∀ {l : List α} {r : List β}, concatM f l = .ok r →
    (∀ a ∈ l, ∃ x, f a = .ok x) ∧ ∀ b, b ∈ r ↔ ∃ a ∈ l, ∃ x, f a = .ok x ∧ b ∈ x
  | [], r, h => by
    rw [concatM] at h
    injection h with h
    subst h
    simp
  | a :: l, r, h => by
    rw [concatM] at h
    cases ha : f a with
    | error e => rw [ha] at h; cases h
    | ok x =>
      rw [ha] at h
      cases hl : concatM f l with
      | error e => rw [hl] at h; cases h
      | ok y =>
        rw [hl] at h
        simp only [bind, Except.bind, pure, Except.pure] at h
        injection h with h
        subst h
        obtain ⟨h1, h2⟩ := concatM_mem hl
        refine ⟨?_, ?_⟩
        · intro b hb
          rcases List.mem_cons.1 hb with rfl | hb
          · exact ⟨x, ha⟩
          · exact h1 b hb
        · intro b
          rw [List.mem_append, h2]
          constructor
          · rintro (hb | ⟨a', ha', x', h3, h4⟩)
            · exact ⟨a, by simp, x, ha, hb⟩
            · exact ⟨a', by simp [ha'], x', h3, h4⟩
          · rintro ⟨a', ha', x', h3, h4⟩
            rcases List.mem_cons.1 ha' with rfl | ha'
            · rw [ha] at h3; injection h3 with h3; subst h3; exact .inl h4
            · exact .inr ⟨a', ha', x', h3, h4⟩

theorem concatM_congr {α β : Type} {f g : α → Except PyErr (List β)} : ∀ {l : List α} {r : List β}, concatM f l = .ok r →
    (∀ a ∈ l, ∀ x, f a = .ok x → g a = .ok x) → concatM g l = .ok r
  | [], r, h, _ => by rw [concatM] at h ⊢; exact h
  | a :: l, r, h, hfg => by
    rw [concatM] at h ⊢
    cases ha : f a with
    | error e => rw [ha] at h; cases h
    | ok x =>
      rw [ha] at h
      cases hl : concatM f l with
      | error e => rw [hl] at h; cases h
      | ok y =>
        rw [hl] at h
        rw [hfg a (by simp) x ha, concatM_congr hl (fun b hb => hfg b (by simp [hb]))]
        exact h

theorem flatNode_visible {env : NumEnv ℝ} {doc : XNode} {c : Flat} {n : Nat} {pT : Option (Mat ℝ)} {chk : Bool} {a : At} {l : List (At × Mat ℝ)}
    (h : flatNode env doc c (n + 1) pT chk a = .ok l) : ∃ v, nodeVisible chk false (a.chain.map XNode.toNode) = .ok v := by
  rw [flatNode] at h
  cases hv : nodeVisible chk false (a.chain.map XNode.toNode) with
  | error e => rw [hv] at h; cases h
  | ok v => exact ⟨v, rfl⟩

theorem flatNode_own {env : NumEnv ℝ} {doc : XNode} {c : Flat} {n : Nat} {T : Mat ℝ} {chk : Bool} {a : At} {l : List (At × Mat ℝ)}
    (h : flatNode env doc c (n + 1) (some T) chk a = .ok l) (hv : nodeVisible chk false (a.chain.map XNode.toNode) = .ok true) :
    ∃ own, parseTransform env (a.node.get "transform".toList) = .ok own := by
  rw [flatNode] at h
  cases ho : parseTransform env (a.node.get "transform".toList) with
  | ok own => exact ⟨own, rfl⟩
  | error e =>
    simp only [hv, bind, Except.bind, Bool.not_true, Bool.false_eq_true, if_false, ho] at h
    cases h

/-- A result does not change if more recursion is allowed. -/
theorem flatNode_succ (env : NumEnv ℝ) (doc : XNode) (c : Flat) (hc : c.accumulate = true) : ∀ (n : Nat) (T : Mat ℝ) (chk : Bool) (a : At)
    (l : List (At × Mat ℝ)), flatNode env doc c n (some T) chk a = .ok l → flatNode env doc c (n + 1) (some T) chk a = .ok l := by
  intro n
  induction n with
  | zero => intro T chk a l h; rw [flatNode] at h; cases h
  | succ n ih =>
    intro T chk a l h
    obtain ⟨v, hv⟩ := flatNode_visible h
    cases v with
    | false => rw [flatNode_off env doc c n _ chk a hv] at h; rw [flatNode_off env doc c (n + 1) _ chk a hv]; exact h
    | true =>
      obtain ⟨own, ho⟩ := flatNode_own h hv
      rw [flatNode_group env doc c hc n _ T own chk a (.inl rfl) hv ho] at h
      rw [flatNode_group env doc c hc (n + 1) _ T own chk a (.inl rfl) hv ho]
      by_cases hg : a.node.isGroup = true
      · rw [if_pos hg] at h ⊢
        by_cases hs : c.skips a.node = true
        · rw [if_pos hs] at h ⊢; exact h
        · rw [if_neg hs] at h ⊢
          exact concatM_congr h fun k _ x hx => ih _ _ _ _ hx
      · rw [if_neg hg] at h ⊢
        by_cases hu : a.node.isUse = true
        · rw [if_pos hu] at h ⊢
          cases hr : a.node.get "xlink:href".toList with
          | none => rw [hr] at h; exact h
          | some ref =>
            rw [hr] at h
            dsimp only at h ⊢
            by_cases he : ref.isEmpty = true
            · rw [if_pos he] at h ⊢; exact h
            · rw [if_neg he] at h ⊢
              cases hb : byId doc (ref.drop 1) with
              | none => rw [hb] at h; exact h
              | some r =>
                rw [hb] at h
                dsimp only at h ⊢
                cases hx : a.node.num env "x".toList with
                | error e => rw [hx] at h; cases h
                | ok x =>
                  cases hy : a.node.num env "y".toList with
                  | error e => rw [hx, hy] at h; cases h
                  | ok y =>
                    rw [hx, hy] at h
                    exact ih _ _ _ _ h
        · rw [if_neg hu] at h ⊢; exact h

theorem flatNode_le (env : NumEnv ℝ) (doc : XNode) (c : Flat) (hc : c.accumulate = true) {n m : Nat} (hnm : n ≤ m) {T : Mat ℝ} {chk : Bool} {a : At}
    {l : List (At × Mat ℝ)} (h : flatNode env doc c n (some T) chk a = .ok l) : flatNode env doc c m (some T) chk a = .ok l := by
  induction hnm with
  | refl => exact h
  | step _ ih => exact flatNode_succ env doc c hc _ _ _ _ _ ih

/-! ## What is drawn -/

theorem compose_translate_zero (M : Mat ℝ) {x y : ℝ} (h : (isZeroF x && isZeroF y) = true) : M.compose (Mat.translate x y) = M := by
  rw [Bool.and_eq_true] at h
  have hx : x = 0 := by
    have := h.1
    simp [isZeroF] at this
    exact le_antisymm this.2 this.1
  have hy : y = 0 := by
    have := h.2
    simp [isZeroF] at this
    exact le_antisymm this.2 this.1
  subst hx hy
  have : (Mat.translate (0 : ℝ) 0) = Mat.ident := by
    ext <;> simp [Mat.translate, Mat.ident]
  rw [this, (C41_compose M M M ⟨0, 0⟩).2.2.1]

/-! ## Places of a document -/

theorem places_mem (n : XNode) : ∀ up, ∀ b ∈ n.places up, (∀ m ∈ b.chain, m ∈ up ∨ ∃ b' ∈ n.places up, b'.node = m) ∧
    ∀ k ∈ b.kids, k ∈ n.places up := by
  refine XNode.rec (motive_1 := fun n => ∀ up, ∀ b ∈ n.places up, (∀ m ∈ b.chain, m ∈ up ∨ ∃ b' ∈ n.places up, b'.node = m) ∧
      ∀ k ∈ b.kids, k ∈ n.places up)
    (motive_2 := fun ks => ∀ up, ∀ b ∈ placesList up ks, (∀ m ∈ b.chain, m ∈ up ∨ ∃ b' ∈ placesList up ks, b'.node = m) ∧
      ∀ k ∈ b.kids, k ∈ placesList up ks) ?_ ?_ ?_ ?_ n
  · intro ns t a ks ih up b hb
    have hself : (⟨.elem ns t a ks, up⟩ : At) ∈ (XNode.elem ns t a ks).places up := by rw [XNode.places]; simp
    rw [XNode.places] at hb
    rcases List.mem_cons.1 hb with rfl | hb
    · refine ⟨?_, ?_⟩
      · intro m hm
        rcases List.mem_cons.1 hm with rfl | hm
        · exact .inr ⟨_, hself, rfl⟩
        · exact .inl hm
      · intro k hk
        obtain ⟨x, hx, rfl⟩ := List.mem_map.1 hk
        rw [XNode.places, placesList_eq]
        refine List.mem_cons_of_mem _ (List.mem_flatMap.2 ⟨x, hx, ?_⟩)
        have := places_eq ⟨x, XNode.elem ns t a ks :: up⟩
        dsimp only at this
        show _ ∈ x.places (XNode.elem ns t a ks :: up)
        rw [this]
        exact List.mem_cons_self ..
    · obtain ⟨h1, h2⟩ := ih _ b hb
      refine ⟨?_, ?_⟩
      · intro m hm
        rcases h1 m hm with h | ⟨b', hb', h⟩
        · rcases List.mem_cons.1 h with rfl | h
          · exact .inr ⟨_, hself, rfl⟩
          · exact .inl h
        · exact .inr ⟨b', by rw [XNode.places]; exact List.mem_cons_of_mem _ hb', h⟩
      · intro k hk
        rw [XNode.places]
        exact List.mem_cons_of_mem _ (h2 k hk)
  · intro up b hb
    rw [XNode.places, List.mem_singleton] at hb
    subst hb
    refine ⟨?_, ?_⟩
    · intro m hm
      rcases List.mem_cons.1 hm with rfl | hm
      · exact .inr ⟨_, by rw [XNode.places]; simp, rfl⟩
      · exact .inl hm
    · intro k hk; simp [At.kids, XNode.kids] at hk
  · intro up b hb
    simp [placesList] at hb
  · intro k ks ih1 ih2 up b hb
    rw [placesList] at hb ⊢
    rcases List.mem_append.1 hb with hb | hb
    · obtain ⟨h1, h2⟩ := ih1 up b hb
      refine ⟨?_, fun k hk => List.mem_append_left _ (h2 k hk)⟩
      intro m hm
      rcases h1 m hm with h | ⟨b', hb', h⟩
      · exact .inl h
      · exact .inr ⟨b', List.mem_append_left _ hb', h⟩
    · obtain ⟨h1, h2⟩ := ih2 up b hb
      refine ⟨?_, fun k hk => List.mem_append_right _ (h2 k hk)⟩
      intro m hm
      rcases h1 m hm with h | ⟨b', hb', h⟩
      · exact .inl h
      · exact .inr ⟨b', List.mem_append_right _ hb', h⟩

theorem doc_self (doc : XNode) : (⟨doc, []⟩ : At) ∈ doc.places [] := by
  have := places_eq ⟨doc, []⟩
  dsimp only at this
  rw [this]
  exact List.mem_cons_self ..

theorem byId_place {doc : XNode} {id : Str} {r : At} (h : byId doc id = some r) : r ∈ doc.places [] := by
  have h1 : r ∈ placesList [doc] doc.kids := List.mem_of_find?_eq_some h
  have := places_eq ⟨doc, []⟩
  dsimp only at this
  rw [this]
  exact List.mem_cons_of_mem _ h1

theorem kid_place {doc : XNode} {a k : At} (h : a ∈ doc.places []) (hk : k ∈ a.kids) : k ∈ doc.places [] := (places_mem doc [] a h).2 k hk

/-- Specification: a document in which everything can be parsed: styles, transforms, and the position of references; and without comments. -/
def Regular (env : NumEnv ℝ) (doc : XNode) : Prop :=
  ∀ b ∈ doc.places [], b.node ≠ .comment ∧ GoodStyle b.node.toNode ∧ (∃ t, parseTransform env (b.node.get "transform".toList) = .ok t) ∧
    (b.node.isUse = true → (∃ x, b.node.num env "x".toList = .ok x) ∧ ∃ y, b.node.num env "y".toList = .ok y)

theorem Regular.chain {env : NumEnv ℝ} {doc : XNode} (h : Regular env doc) {a : At} (ha : a ∈ doc.places []) : ∀ m ∈ a.chain, GoodStyle m.toNode := by
  intro m hm
  rcases (places_mem doc [] a ha).1 m hm with h1 | ⟨b, hb, rfl⟩
  · cases h1
  · exact (h b hb).2.1

/-- Specification: drawing the element `a` leads to drawing the element `b`. -/
def Leads (env : NumEnv ℝ) (doc : XNode) (c : Flat) (a b : At) : Prop :=
  Seen a ∧ (Open c a.node ∧ b ∈ a.kids ∨ ∃ x y, RefersTo env doc a.node b x y)

/-- Specification: drawing the element `a` never ends: it leads to an element that leads back to itself. -/
def Endless (env : NumEnv ℝ) (doc : XNode) (c : Flat) (a : At) : Prop :=
  ∃ b, Relation.ReflTransGen (Leads env doc c) a b ∧ Relation.TransGen (Leads env doc c) b b

theorem leads_place {env : NumEnv ℝ} {doc : XNode} {c : Flat} {a b : At} (h : Leads env doc c a b) (ha : a ∈ doc.places []) : b ∈ doc.places [] := by
  rcases h.2 with ⟨-, hk⟩ | ⟨x, y, -, -, ⟨ch, id, -, hid⟩, -⟩
  · exact kid_place ha hk
  · exact byId_place hid

theorem endless_step {env : NumEnv ℝ} {doc : XNode} {c : Flat} {a : At} (h : Endless env doc c a) : ∃ b, Leads env doc c a b ∧ Endless env doc c b := by
  obtain ⟨b, h1, h2⟩ := h
  rcases Relation.ReflTransGen.cases_head h1 with rfl | ⟨a', h3, h4⟩
  · obtain ⟨a', h3, h4⟩ := Relation.TransGen.head'_iff.1 h2
    exact ⟨a', h3, a, h4, h2⟩
  · exact ⟨a', h3, b, h4, h2⟩

/-- The traversal step of a regular document. -/
theorem flatNode_step {env : NumEnv ℝ} {doc : XNode} {c : Flat} (hc : c.accumulate = true) (hreg : Regular env doc) (n : Nat) (T : Mat ℝ) (a : At)
    (ha : a ∈ doc.places []) : ∃ own, parseTransform env (a.node.get "transform".toList) = .ok own ∧
    (¬ Seen a ∧ flatNode env doc c (n + 1) (some T) false a = .ok [] ∨
     Seen a ∧ Open c a.node ∧ flatNode env doc c (n + 1) (some T) false a = concatM (flatNode env doc c n (some (T.compose own)) false) a.kids ∨
     (∃ r x y, Seen a ∧ RefersTo env doc a.node r x y ∧
       flatNode env doc c (n + 1) (some T) false a = flatNode env doc c n (some ((T.compose own).compose (Mat.translate x y))) false r) ∨
     Seen a ∧ IsShape c a.node ∧ flatNode env doc c (n + 1) (some T) false a = .ok [(a, T.compose own)] ∨
     Seen a ∧ ¬ Open c a.node ∧ ¬ IsShape c a.node ∧ (∀ r x y, ¬ RefersTo env doc a.node r x y) ∧ flatNode env doc c (n + 1) (some T) false a = .ok []) := by
  obtain ⟨hcom, hgs, ⟨own, ho⟩, hxy⟩ := hreg a ha
  refine ⟨own, ho, ?_⟩
  obtain ⟨v, hv, -⟩ := C76_visible_alone a.node.toNode (a.up.map XNode.toNode) (by
    intro m hm
    rcases List.mem_cons.1 hm with rfl | hm
    · exact hgs
    · obtain ⟨x, hx, rfl⟩ := List.mem_map.1 hm; exact hreg.chain ha x (by simp [At.chain, hx]))
  have hv : nodeVisible false false (a.chain.map XNode.toNode) = .ok v := hv
  have hseen := visible_seen (hreg.chain ha) hv
  cases v with
  | false => exact .inl ⟨fun h => absurd (hseen.2 h) (by simp), flatNode_off env doc c n _ false a hv⟩
  | true =>
    have hsn : Seen a := hseen.1 rfl
    right
    rw [flatNode_group env doc c hc n _ T own false a (.inl rfl) hv ho]
    by_cases hg : a.node.isGroup = true
    · rw [if_pos hg]
      have hns : ¬ IsShape c a.node := fun h => by rw [h.1] at hg; cases hg
      have hnr : ∀ r x y, ¬ RefersTo env doc a.node r x y := fun r x y h => by rw [h.1] at hg; cases hg
      by_cases hs : c.skips a.node = true
      · rw [if_pos hs]
        exact .inr (.inr (.inr ⟨hsn, fun h => (by rw [h.2] at hs; cases hs), hns, hnr, rfl⟩))
      · rw [if_neg hs]
        exact .inl ⟨hsn, ⟨hg, by simpa using hs⟩, rfl⟩
    · rw [if_neg hg]
      have hno : ¬ Open c a.node := fun h => hg h.1
      by_cases hu : a.node.isUse = true
      · rw [if_pos hu]
        obtain ⟨⟨x, hx⟩, ⟨y, hy⟩⟩ := hxy hu
        have hns : ¬ IsShape c a.node := fun h => by rw [h.2.1] at hu; cases hu
        cases hr : a.node.get "xlink:href".toList with
        | none =>
          refine .inr (.inr (.inr ⟨hsn, hno, hns, ?_, rfl⟩))
          rintro r x y ⟨-, -, ⟨ch, id, h, -⟩, -⟩
          rw [hr] at h; cases h
        | some ref =>
          dsimp only
          cases ref with
          | nil =>
            rw [if_pos (by rfl)]
            refine .inr (.inr (.inr ⟨hsn, hno, hns, ?_, rfl⟩))
            rintro r x y ⟨-, -, ⟨ch, id, h, -⟩, -⟩
            rw [hr] at h; cases h
          | cons ch id =>
            rw [if_neg (by simp)]
            rw [List.drop_one, List.tail_cons]
            cases hb : byId doc id with
            | none =>
              refine .inr (.inr (.inr ⟨hsn, hno, hns, ?_, rfl⟩))
              rintro r x y ⟨-, -, ⟨ch', id', h, h'⟩, -⟩
              rw [hr] at h
              injection h with h
              injection h with h1 h2
              subst h2
              rw [hb] at h'; cases h'
            | some r =>
              refine .inr (.inl ⟨r, x, y, hsn, ⟨by simpa using hg, hu, ⟨ch, id, hr, hb⟩, hx, hy⟩, ?_⟩)
              simp only [hx, hy, bind, Except.bind]
              by_cases hz : (isZeroF x && isZeroF y) = true
              · rw [if_pos hz, compose_translate_zero _ hz]
              · rw [if_neg hz]
      · rw [if_neg hu]
        have hnr : ∀ r x y, ¬ RefersTo env doc a.node r x y := fun r x y h => hu h.2.1
        obtain ⟨node, up⟩ := a
        cases node with
        | comment => exact absurd rfl hcom
        | elem ns tag attr kids =>
          have hsh : IsShape c (.elem ns tag attr kids) ↔ tag ∈ c.shapes := by
            constructor
            · rintro ⟨-, -, ns', tag', attr', kids', h, h'⟩; cases h; exact h'
            · intro h; exact ⟨by simpa using hg, by simpa using hu, ns, tag, attr, kids, rfl, h⟩
          dsimp only
          by_cases hs : tag ∈ c.shapes
          · rw [if_pos hs]
            exact .inr (.inr (.inl ⟨hsn, hsh.2 hs, rfl⟩))
          · rw [if_neg hs]
            exact .inr (.inr (.inr ⟨hsn, hno, fun h => hs (hsh.1 h), hnr, rfl⟩))

/-- What is drawn, by the kind of the element. -/
theorem draws_iff {env : NumEnv ℝ} {doc : XNode} {c : Flat} {T own : Mat ℝ} {a : At} (ho : parseTransform env (a.node.get "transform".toList) = .ok own)
    (s : At × Mat ℝ) : DrawnBy env doc c T a s ↔ Seen a ∧ (IsShape c a.node ∧ s = (a, T.compose own) ∨
      (Open c a.node ∧ ∃ k ∈ a.kids, DrawnBy env doc c (T.compose own) k s) ∨
      ∃ r x y, RefersTo env doc a.node r x y ∧ DrawnBy env doc c ((T.compose own).compose (Mat.translate x y)) r s) := by
  constructor
  · intro h
    cases h with
    | shape _ own' _ h1 h2 h3 => rw [ho] at h2; injection h2 with h2; subst h2; exact ⟨h1, .inl ⟨h3, rfl⟩⟩
    | group _ own' _ k _ h1 h2 h3 h4 h5 => rw [ho] at h2; injection h2 with h2; subst h2; exact ⟨h1, .inr (.inl ⟨h3, k, h4, h5⟩)⟩
    | use _ own' _ r x y _ h1 h2 h3 h4 => rw [ho] at h2; injection h2 with h2; subst h2; exact ⟨h1, .inr (.inr ⟨r, x, y, h3, h4⟩)⟩
  · rintro ⟨h1, ⟨h2, rfl⟩ | ⟨h2, k, h3, h4⟩ | ⟨r, x, y, h2, h3⟩⟩
    · exact .shape _ _ _ h1 ho h2
    · exact .group _ _ _ k _ h1 ho h2 h3 h4
    · exact .use _ _ _ r x y _ h1 ho h2 h3

theorem shape_not_open {c : Flat} {n : XNode} (h : IsShape c n) : ¬ Open c n := fun h' => absurd h'.1 (by rw [h.1]; simp)

theorem refers_unique {env : NumEnv ℝ} {doc n : XNode} {r r' : At} {x y x' y' : ℝ} (h : RefersTo env doc n r x y) (h' : RefersTo env doc n r' x' y') :
    r = r' ∧ x = x' ∧ y = y' := by
  obtain ⟨-, -, ⟨ch, id, h1, h2⟩, h3, h4⟩ := h
  obtain ⟨-, -, ⟨ch', id', h1', h2'⟩, h3', h4'⟩ := h'
  rw [h1] at h1'; injection h1' with h1'; injection h1' with _ h1'; subst h1'
  rw [h2] at h2'; injection h2' with h2'
  rw [h3] at h3'; injection h3' with h3'
  rw [h4] at h4'; injection h4' with h4'
  exact ⟨h2', h3', h4'⟩

/-- The result, if there is one, is what is drawn; and then drawing ends. -/
theorem flatNode_draws {env : NumEnv ℝ} {doc : XNode} {c : Flat} (hc : c.accumulate = true) (hreg : Regular env doc) : ∀ (n : Nat) (T : Mat ℝ) (a : At)
    (l : List (At × Mat ℝ)), a ∈ doc.places [] → flatNode env doc c n (some T) false a = .ok l →
    (∀ s, s ∈ l ↔ DrawnBy env doc c T a s) ∧ ¬ Endless env doc c a := by
  intro n
  induction n with
  | zero => intro T a l _ h; rw [flatNode] at h; cases h
  | succ n ih =>
    intro T a l ha h
    obtain ⟨own, ho, hcase⟩ := flatNode_step hc hreg n T a ha
    have hstop : (∀ b, Leads env doc c a b → ¬ Endless env doc c b) → ¬ Endless env doc c a := by
      intro h1 h2
      obtain ⟨b, h3, h4⟩ := endless_step h2
      exact h1 b h3 h4
    rcases hcase with ⟨h1, h2⟩ | ⟨h1, h2, h3⟩ | ⟨r, x, y, h1, h2, h3⟩ | ⟨h1, h2, h3⟩ | ⟨h1, h2, h3, h4, h5⟩
    · rw [h2] at h
      injection h with h
      subst h
      refine ⟨fun s => ?_, hstop fun b hb => absurd hb.1 h1⟩
      rw [draws_iff ho]
      exact ⟨by simp, fun h => absurd h.1 h1⟩
    · rw [h3] at h
      obtain ⟨h4, h5⟩ := concatM_mem h
      have hnr : ∀ r x y, ¬ RefersTo env doc a.node r x y := fun r x y h => absurd h2.1 (by rw [h.1]; simp)
      refine ⟨fun s => ?_, hstop ?_⟩
      · rw [h5, draws_iff ho]
        constructor
        · rintro ⟨k, hk, lk, h6, h7⟩
          exact ⟨h1, .inr (.inl ⟨h2, k, hk, ((ih _ k lk (kid_place ha hk) h6).1 s).1 h7⟩)⟩
        · rintro ⟨-, ⟨h6, -⟩ | ⟨-, k, hk, h6⟩ | ⟨r, x, y, h6, -⟩⟩
          · exact absurd h2 (shape_not_open h6)
          · obtain ⟨lk, hlk⟩ := h4 k hk
            exact ⟨k, hk, lk, hlk, ((ih _ k lk (kid_place ha hk) hlk).1 s).2 h6⟩
          · exact absurd h6 (hnr r x y)
      · rintro b ⟨-, ⟨-, hk⟩ | ⟨x, y, hr⟩⟩
        · obtain ⟨lk, hlk⟩ := h4 b hk
          exact (ih _ b lk (kid_place ha hk) hlk).2
        · exact absurd hr (hnr b x y)
    · rw [h3] at h
      obtain ⟨ch, id, -, hid⟩ := h2.2.2.1
      obtain ⟨h4, h5⟩ := ih _ r l (byId_place hid) h
      refine ⟨fun s => ?_, hstop ?_⟩
      · rw [h4, draws_iff ho]
        constructor
        · intro h6; exact ⟨h1, .inr (.inr ⟨r, x, y, h2, h6⟩)⟩
        · rintro ⟨-, ⟨h6, -⟩ | ⟨h6, -⟩ | ⟨r', x', y', h6, h7⟩⟩
          · exact absurd h2.2.1 (by rw [h6.2.1]; simp)
          · exact absurd h6.1 (by rw [h2.1]; simp)
          · obtain ⟨rfl, rfl, rfl⟩ := refers_unique h2 h6
            exact h7
      · rintro b ⟨-, ⟨h6, -⟩ | ⟨x', y', hr⟩⟩
        · exact absurd h6.1 (by rw [h2.1]; simp)
        · obtain ⟨rfl, -, -⟩ := refers_unique h2 hr
          exact h5
    · rw [h3] at h
      injection h with h
      subst h
      refine ⟨fun s => ?_, hstop ?_⟩
      · rw [draws_iff ho, List.mem_singleton]
        constructor
        · intro h6; exact ⟨h1, .inl ⟨h2, h6⟩⟩
        · rintro ⟨-, ⟨-, h6⟩ | ⟨h6, -⟩ | ⟨r', x', y', h6, -⟩⟩
          · exact h6
          · exact absurd h6 (shape_not_open h2)
          · exact absurd h2.2.1 (by rw [h6.2.1]; simp)
      · rintro b ⟨-, ⟨h6, -⟩ | ⟨x', y', hr⟩⟩
        · exact absurd h6 (shape_not_open h2)
        · exact absurd hr.2.1 (by rw [h2.2.1]; simp)
    · rw [h5] at h
      injection h with h
      subst h
      refine ⟨fun s => ?_, hstop ?_⟩
      · rw [draws_iff ho]
        refine ⟨by simp, ?_⟩
        rintro ⟨-, ⟨h6, -⟩ | ⟨h6, -⟩ | ⟨r', x', y', h6, -⟩⟩
        · exact absurd h6 h3
        · exact absurd h6 h2
        · exact absurd h6 (h4 _ _ _)
      · rintro b ⟨-, ⟨h6, -⟩ | ⟨x', y', hr⟩⟩
        · exact absurd h6 h2
        · exact absurd hr (h4 _ _ _)

theorem concatM_cases {α β : Type} {f : α → Except PyErr (List β)} {e : PyErr} : ∀ {l : List α}, (∀ a ∈ l, (∃ x, f a = .ok x) ∨ f a = .error e) →
    (∃ x, concatM f l = .ok x) ∨ concatM f l = .error e
  | [], _ => .inl ⟨_, rfl⟩
  | a :: l, h => by
    rw [concatM]
    rcases h a (by simp) with ⟨x, hx⟩ | hx
    · rcases concatM_cases (l := l) (fun b hb => h b (by simp [hb])) with ⟨y, hy⟩ | hy
      · rw [hx, hy]; exact .inl ⟨_, rfl⟩
      · rw [hx, hy]; exact .inr rfl
    · rw [hx]; exact .inr rfl

/-- In a regular document the traversal can only fail by exceeding the recursion limit. -/
theorem flatNode_runtime {env : NumEnv ℝ} {doc : XNode} {c : Flat} (hc : c.accumulate = true) (hreg : Regular env doc) : ∀ (n : Nat) (T : Mat ℝ) (a : At),
    a ∈ doc.places [] → (∃ l, flatNode env doc c n (some T) false a = .ok l) ∨ flatNode env doc c n (some T) false a = .error .runtime := by
  intro n
  induction n with
  | zero => intro T a _; exact .inr (by rw [flatNode])
  | succ n ih =>
    intro T a ha
    obtain ⟨own, ho, hcase⟩ := flatNode_step hc hreg n T a ha
    rcases hcase with ⟨h1, h2⟩ | ⟨h1, h2, h3⟩ | ⟨r, x, y, h1, h2, h3⟩ | ⟨h1, h2, h3⟩ | ⟨h1, h2, h3, h4, h5⟩
    · exact .inl ⟨_, h2⟩
    · rw [h3]
      exact concatM_cases fun k hk => ih _ k (kid_place ha hk)
    · rw [h3]
      obtain ⟨ch, id, -, hid⟩ := h2.2.2.1
      exact ih _ r (byId_place hid)
    · exact .inl ⟨_, h3⟩
    · exact .inl ⟨_, h5⟩

theorem bounded_limit {α : Type} {p : Nat → α → Prop} (hmono : ∀ n m a, n ≤ m → p n a → p m a) : ∀ l : List α, (∀ a ∈ l, ∃ n, p n a) → ∃ n, ∀ a ∈ l, p n a
  | [], _ => ⟨0, by simp⟩
  | a :: l, h => by
    obtain ⟨n, hn⟩ := h a (by simp)
    obtain ⟨m, hm⟩ := bounded_limit hmono l fun b hb => h b (by simp [hb])
    refine ⟨n + m, ?_⟩
    intro b hb
    rcases List.mem_cons.1 hb with rfl | hb
    · exact hmono n _ _ (by omega) hn
    · exact hmono m _ _ (by omega) (hm b hb)

/-- If drawing ends the traversal does, for a recursion limit that is large enough. -/
theorem flatNode_ends {env : NumEnv ℝ} {doc : XNode} {c : Flat} (hc : c.accumulate = true) (hreg : Regular env doc) {a : At} (ha : a ∈ doc.places [])
    (hfin : ¬ Endless env doc c a) : ∃ n, ∀ T, ∃ l, flatNode env doc c n (some T) false a = .ok l := by
  let S : Type := {b : At // b ∈ doc.places [] ∧ ¬ Endless env doc c b}
  have hfinite : Finite S := by
    have h1 : Set.Finite {b : At | b ∈ doc.places []} := List.finite_toSet _
    exact Set.Finite.subset h1 (fun b hb => hb.1)
  let r : S → S → Prop := fun b a => Relation.TransGen (Leads env doc c) a.1 b.1
  have htrans : IsTrans S r := ⟨fun a b c h1 h2 => Relation.TransGen.trans h2 h1⟩
  have hirr : Std.Irrefl r := ⟨fun a h => a.2.2 ⟨a.1, .refl, h⟩⟩
  have hwf : WellFounded r := Finite.wellFounded_of_trans_of_irrefl r
  have key : ∀ s : S, ∃ n, ∀ T, ∃ l, flatNode env doc c n (some T) false s.1 = .ok l := by
    intro s
    induction s using hwf.induction with
    | _ s ih =>
      have hnext : ∀ b, Leads env doc c s.1 b → ∃ n, ∀ T, ∃ l, flatNode env doc c n (some T) false b = .ok l := by
        intro b hb
        refine ih ⟨b, leads_place hb s.2.1, ?_⟩ (Relation.TransGen.single hb)
        rintro ⟨d, h1, h2⟩
        exact s.2.2 ⟨d, Relation.ReflTransGen.head hb h1, h2⟩
      have hmono : ∀ n m b, n ≤ m → (∀ T, ∃ l, flatNode env doc c n (some T) false b = .ok l) →
          ∀ T, ∃ l, flatNode env doc c m (some T) false b = .ok l := by
        intro n m b hnm h T
        obtain ⟨l, hl⟩ := h T
        exact ⟨l, flatNode_le env doc c hc hnm hl⟩
      by_cases hk : Seen s.1 ∧ Open c s.1.node
      · obtain ⟨n, hn⟩ := bounded_limit (p := fun n b => ∀ T, ∃ l, flatNode env doc c n (some T) false b = .ok l) hmono s.1.kids
          (fun k hk' => hnext k ⟨hk.1, .inl ⟨hk.2, hk'⟩⟩)
        refine ⟨n + 1, fun T => ?_⟩
        obtain ⟨own, ho, hcase⟩ := flatNode_step hc hreg n T s.1 s.2.1
        rcases hcase with ⟨h1, h2⟩ | ⟨h1, h2, h3⟩ | ⟨r, x, y, h1, h2, h3⟩ | ⟨h1, h2, h3⟩ | ⟨h1, h2, h3, h4, h5⟩
        · exact ⟨_, h2⟩
        · rw [h3]
          obtain ⟨g, -, hg⟩ := concatM_exists (l := s.1.kids) (f := flatNode env doc c n (some (T.compose own)) false) (fun k hk' => hn k hk' _)
          exact ⟨_, hg⟩
        · exact absurd hk.2.1 (by rw [h2.1]; simp)
        · exact ⟨_, h3⟩
        · exact ⟨_, h5⟩
      · by_cases hu : Seen s.1 ∧ ∃ r x y, RefersTo env doc s.1.node r x y
        · obtain ⟨hsn, r, x, y, hr⟩ := hu
          obtain ⟨n, hn⟩ := hnext r ⟨hsn, .inr ⟨x, y, hr⟩⟩
          refine ⟨n + 1, fun T => ?_⟩
          obtain ⟨own, ho, hcase⟩ := flatNode_step hc hreg n T s.1 s.2.1
          rcases hcase with ⟨h1, h2⟩ | ⟨h1, h2, h3⟩ | ⟨r', x', y', h1, h2, h3⟩ | ⟨h1, h2, h3⟩ | ⟨h1, h2, h3, h4, h5⟩
          · exact ⟨_, h2⟩
          · exact absurd ⟨h1, h2⟩ hk
          · rw [h3]
            obtain ⟨rfl, -, -⟩ := refers_unique hr h2
            exact hn _
          · exact ⟨_, h3⟩
          · exact ⟨_, h5⟩
        · refine ⟨1, fun T => ?_⟩
          obtain ⟨own, ho, hcase⟩ := flatNode_step hc hreg 0 T s.1 s.2.1
          rcases hcase with ⟨h1, h2⟩ | ⟨h1, h2, h3⟩ | ⟨r', x', y', h1, h2, h3⟩ | ⟨h1, h2, h3⟩ | ⟨h1, h2, h3, h4, h5⟩
          · exact ⟨_, h2⟩
          · exact absurd ⟨h1, h2⟩ hk
          · exact absurd ⟨h1, r', x', y', h2⟩ hu
          · exact ⟨_, h3⟩
          · exact ⟨_, h5⟩
  exact key ⟨a, ha, hfin⟩

/-! ## C112 -/

theorem flatNode_none (env : NumEnv ℝ) (doc : XNode) (c : Flat) (n : Nat) (chk : Bool) (a : At) {T : Mat ℝ}
    (h : parentTransform env (a.up.map fun x : XNode => x.get "transform".toList) = .ok T) :
    flatNode env doc c n none chk a = flatNode env doc c n (some T) chk a := by
  cases n with
  | zero => rw [flatNode, flatNode]
  | succ n => rw [flatNode, flatNode]; simp only [h, bind, Except.bind]

/-- **C112**: in a document where everything can be parsed and that has no comments, and whose root is visible with the transform `T`: if
drawing it ends, that is, no element that is reached is drawn as part of itself, then for every recursion limit that is large enough
the shapes collected are exactly the shapes drawn (`DrawnBy`: through groups, and through references moved by their `x` and `y`,
nested to any depth), each with the transform SVG gives it. -/
theorem C112_references (env : NumEnv ℝ) (doc : XNode) (c : Flat) (hc : c.accumulate = true) (hreg : Regular env doc) (T : Mat ℝ)
    (hT : parseTransform env (doc.get "transform".toList) = .ok T) (hvis : ¬ Off doc.toNode)
    (hfin : ∀ k ∈ (⟨doc, []⟩ : At).kids, ¬ Endless env doc c k) :
    ∃ limit, ∃ l : List (At × Mat ℝ), (∀ m, limit ≤ m → shapesOf env doc c m none ⟨doc, []⟩ = .ok l) ∧
      ∀ s, s ∈ l ↔ ∃ k ∈ (⟨doc, []⟩ : At).kids, DrawnBy env doc c T k s := by
  have hroot := doc_self doc
  obtain ⟨v, hv, hvo⟩ := C76_visible doc.toNode [] (by
    intro m hm
    rw [List.mem_singleton] at hm
    subst hm
    exact (hreg _ hroot).2.1)
  have hv1 : v = true := by
    cases v with
    | true => rfl
    | false =>
      obtain ⟨m, hm, h⟩ := hvo.1 rfl
      rw [List.mem_singleton] at hm
      subst hm
      exact absurd h hvis
  subst hv1
  have hp : parentTransform env ([doc].map fun x : XNode => x.get "transform".toList) = .ok T := by
    have h0 : parentTransform env [] = .ok (Mat.ident : Mat ℝ) := rfl
    have := parentTransform_cons env h0 hT
    rw [(C41_compose T T T ⟨0, 0⟩).2.2.2.1] at this
    exact this
  have hshape : ∀ m, shapesOf env doc c m none ⟨doc, []⟩ = concatM (flatNode env doc c m none false) (⟨doc, []⟩ : At).kids := by
    intro m
    unfold shapesOf
    have hv' : nodeVisible true false ((⟨doc, []⟩ : At).chain.map XNode.toNode) = .ok true := hv
    rw [hv']
    rfl
  have hkid : ∀ m, ∀ k ∈ (⟨doc, []⟩ : At).kids, flatNode env doc c m none false k = flatNode env doc c m (some T) false k := by
    intro m k hk
    refine flatNode_none env doc c m false k ?_
    obtain ⟨x, hx, rfl⟩ := List.mem_map.1 hk
    exact hp
  have hends : ∀ k ∈ (⟨doc, []⟩ : At).kids, ∃ n, ∃ l, flatNode env doc c n (some T) false k = .ok l := by
    intro k hk
    obtain ⟨n, hn⟩ := flatNode_ends hc hreg (kid_place hroot hk) (hfin k hk)
    exact ⟨n, hn T⟩
  obtain ⟨limit, hlim⟩ := bounded_limit (p := fun n k => ∃ l, flatNode env doc c n (some T) false k = .ok l)
    (fun n m k hnm ⟨l, hl⟩ => ⟨l, flatNode_le env doc c hc hnm hl⟩) _ hends
  obtain ⟨g, hg1, hg2⟩ := concatM_exists (l := (⟨doc, []⟩ : At).kids) (f := flatNode env doc c limit none false)
    (fun k hk => by rw [hkid limit k hk]; exact hlim k hk)
  refine ⟨limit, (⟨doc, []⟩ : At).kids.flatMap g, ?_, ?_⟩
  · intro m hm
    rw [hshape]
    refine concatM_congr hg2 ?_
    intro k hk x hx
    rw [hkid _ k hk] at hx ⊢
    exact flatNode_le env doc c hc hm hx
  · intro s
    rw [List.mem_flatMap]
    constructor
    · rintro ⟨k, hk, hs⟩
      have := hg1 k hk
      rw [hkid _ k hk] at this
      exact ⟨k, hk, ((flatNode_draws hc hreg limit T k _ (kid_place hroot hk) this).1 s).1 hs⟩
    · rintro ⟨k, hk, hs⟩
      have := hg1 k hk
      rw [hkid _ k hk] at this
      exact ⟨k, hk, ((flatNode_draws hc hreg limit T k _ (kid_place hroot hk) this).1 s).2 hs⟩

/-- **C112**, what happens otherwise: if drawing a child of the visible root never ends, `RuntimeError` is raised whatever the recursion limit, and
the document cannot be cut at all. -/
theorem C112_endless (env : NumEnv ℝ) (doc : XNode) (c : Flat) (hc : c.accumulate = true) (hreg : Regular env doc) (hvis : ¬ Off doc.toNode) (k : At)
    (hk : k ∈ (⟨doc, []⟩ : At).kids) (hend : Endless env doc c k) (limit : Nat) : shapesOf env doc c limit none ⟨doc, []⟩ = .error .runtime := by
  have hroot := doc_self doc
  obtain ⟨v, hv, hvo⟩ := C76_visible doc.toNode [] (by
    intro m hm
    rw [List.mem_singleton] at hm
    subst hm
    exact (hreg _ hroot).2.1)
  have hv1 : v = true := by
    cases v with
    | true => rfl
    | false =>
      obtain ⟨m, hm, h⟩ := hvo.1 rfl
      rw [List.mem_singleton] at hm
      subst hm
      exact absurd h hvis
  subst hv1
  obtain ⟨T, hT⟩ := (hreg _ hroot).2.2.1
  have hp : parentTransform env ([doc].map fun x : XNode => x.get "transform".toList) = .ok T := by
    have h0 : parentTransform env [] = .ok (Mat.ident : Mat ℝ) := rfl
    have := parentTransform_cons env h0 hT
    rw [(C41_compose T T T ⟨0, 0⟩).2.2.2.1] at this
    exact this
  unfold shapesOf
  have hv' : nodeVisible true false ((⟨doc, []⟩ : At).chain.map XNode.toNode) = .ok true := hv
  rw [hv']
  show concatM (flatNode env doc c limit none false) (⟨doc, []⟩ : At).kids = _
  have hkid : ∀ k ∈ (⟨doc, []⟩ : At).kids, flatNode env doc c limit none false k = flatNode env doc c limit (some T) false k := by
    intro k hk
    refine flatNode_none env doc c limit false k ?_
    obtain ⟨x, hx, rfl⟩ := List.mem_map.1 hk
    exact hp
  rcases concatM_cases (l := (⟨doc, []⟩ : At).kids) (f := flatNode env doc c limit none false) (e := .runtime)
    (fun k hk => by rw [hkid k hk]; exact flatNode_runtime hc hreg limit T k (kid_place hroot hk)) with ⟨x, hx⟩ | h
  · obtain ⟨l, hl⟩ := (concatM_mem hx).1 k hk
    rw [hkid k hk] at hl
    exact absurd hend (flatNode_draws hc hreg limit T k l (kid_place hroot hk) hl).2
  · exact h

/-- What a moved reference does to a point. -/
theorem C112_point (T own : Mat ℝ) (x y : ℝ) (p : P ℝ) :
    ((T.compose own).compose (Mat.translate x y)).apply p = T.apply (own.apply ⟨p.x + x, p.y + y⟩) := by
  rw [(C41_compose (T.compose own) (Mat.translate x y) T p).1, (C41_compose T own T _).1]
  congr 2
  apply P.ext_real <;> simp [Mat.apply, Mat.translate]

theorem shapesOf_visible {K : Type} [PyTrig K] (env : NumEnv K) (doc : XNode) (c : Flat) (limit : Nat) (pT : Option (Mat K)) (root : At)
    (h : nodeVisible true false (root.chain.map XNode.toNode) = .ok true) :
    shapesOf env doc c limit pT root = concatM (flatNode env doc c limit pT false) root.kids := by
  unfold shapesOf
  rw [h]
  rfl

/-- A text value of an attribute list, for the examples. -/
def at' (s t : String) : Str × Str := (s.toList, t.toList)

/-- An element of the SVG name space, for the examples. -/
def el (t : String) (attr : List (Str × Str)) (kids : List XNode) : XNode := .elem .svg t.toList attr kids

/-- **C112**, refuted as "the shapes of every document can be collected": a group that contains a reference to itself. -/
theorem C112_refuted_cycle {K : Type} [PyTrig K] (env : NumEnv K) (limit : Nat) :
    shapesOf env (el "svg" [] [el "g" [at' "id" "a"] [el "use" [at' "xlink:href" "#a"] []]]) {} limit none
      ⟨el "svg" [] [el "g" [at' "id" "a"] [el "use" [at' "xlink:href" "#a"] []]], []⟩ = .error .runtime := by
  have key : ∀ n (T : Mat K) up,
      flatNode env (el "svg" [] [el "g" [at' "id" "a"] [el "use" [at' "xlink:href" "#a"] []]]) {} n (some T) false
        ⟨el "g" [at' "id" "a"] [el "use" [at' "xlink:href" "#a"] []], up⟩ = .error .runtime ∧
      ∀ up', flatNode env (el "svg" [] [el "g" [at' "id" "a"] [el "use" [at' "xlink:href" "#a"] []]]) {} n (some T) false
        ⟨el "use" [at' "xlink:href" "#a"] [], up'⟩ = .error .runtime := by
    intro n
    induction n with
    | zero => exact fun _ _ => ⟨rfl, fun _ => rfl⟩
    | succ n ih =>
      intro T up
      constructor
      · show concatM (flatNode env (el "svg" [] [el "g" [at' "id" "a"] [el "use" [at' "xlink:href" "#a"] []]]) {} n (some (T.compose Mat.ident)) false)
          [⟨el "use" [at' "xlink:href" "#a"] [], _⟩] = _
        rw [concatM, (ih _ up).2]
        rfl
      · intro up'
        have h1 : flatNode env (el "svg" [] [el "g" [at' "id" "a"] [el "use" [at' "xlink:href" "#a"] []]]) {} (n + 1) (some T) false
            ⟨el "use" [at' "xlink:href" "#a"] [], up'⟩ =
            flatNode env (el "svg" [] [el "g" [at' "id" "a"] [el "use" [at' "xlink:href" "#a"] []]]) {} n
              (some (if isZeroF (zero : K) && isZeroF (zero : K) then T.compose Mat.ident else (T.compose Mat.ident).compose (Mat.translate zero zero))) false
              ⟨el "g" [at' "id" "a"] [el "use" [at' "xlink:href" "#a"] []], [el "svg" [] [el "g" [at' "id" "a"] [el "use" [at' "xlink:href" "#a"] []]]]⟩ := rfl
        rw [h1, (ih _ _).1]
  rw [shapesOf_visible env _ {} limit none _ rfl]
  show concatM (flatNode env _ {} limit none false) [⟨el "g" [at' "id" "a"] [el "use" [at' "xlink:href" "#a"] []], [_]⟩] = _
  rw [concatM]
  cases limit with
  | zero => rfl
  | succ n =>
    have h1 : ∀ d up, flatNode env d {} (n + 1) none false ⟨el "g" [at' "id" "a"] [el "use" [at' "xlink:href" "#a"] []], [up]⟩ =
      (do let p ← parentTransform env [up.get "transform".toList]
          flatNode env d {} (n + 1) (some p) false ⟨el "g" [at' "id" "a"] [el "use" [at' "xlink:href" "#a"] []], [up]⟩) := fun d up => rfl
    rw [h1]
    have h2 : parentTransform env [(el "svg" [] [el "g" [at' "id" "a"] [el "use" [at' "xlink:href" "#a"] []]]).get "transform".toList] =
      .ok (Mat.ident : Mat K) := rfl
    simp only [h2, bind, Except.bind, (key (n + 1) _ _).1]

/-- **C111**, refuted as "comments are ignored": a comment among the elements ends in `AttributeError`, for every document whose root is visible and has
only a comment before anything else. -/
theorem C111_refuted_comment {K : Type} [PyTrig K] (env : NumEnv K) (c : Flat) (hc : c.accumulate = true) (limit : Nat) (rest : List XNode) :
    shapesOf env (el "svg" [] (.comment :: rest)) c (limit + 1) none ⟨el "svg" [] (.comment :: rest), []⟩ = .error .attributeError := by
  rw [shapesOf_visible env _ c (limit + 1) none _ rfl]
  show concatM (flatNode env _ c (limit + 1) none false) (⟨.comment, [_]⟩ :: _) = _
  rw [concatM]
  have h1 : ∀ d r, flatNode env d c (limit + 1) none false ⟨.comment, [el "svg" [] r]⟩ = .error .attributeError := fun d r => rfl
  rw [h1]
  rfl

/-! ## Examples -/

/-- A document: a group with a transform, with a path and a hidden path in it; a reference to a rectangle in the definitions; a layer to skip. -/
def docT : XNode := el "svg" [] [
  el "defs" [] [el "rect" [at' "id" "b", at' "transform" "scale(2)"] []],
  el "g" [at' "transform" "translate(1,2)", at' "id" "a"] [el "path" [at' "id" "p"] [], el "g" [at' "style" "display:none"] [el "path" [] []]],
  el "use" [at' "xlink:href" "#b", at' "x" "5"] [],
  el "g" [at' "inkscape:label" "tcnc debug"] [el "path" [] []],
  el "g" [at' "transform" "scale(3)"] [el "use" [at' "xlink:href" "#a"] []]]

/-- The result for this document, over the rational numbers: the tags and transforms. -/
theorem docT_shapes : (shapesOf exactQ docT { skip := [tcncLayer] } 4 none ⟨docT, []⟩).toOption.map
      (fun l => l.map fun s => (s.1.node.get "id".toList, [s.2.a, s.2.b, s.2.c, s.2.d, s.2.e, s.2.f])) =
    some [(some "p".toList, [1, 0, 1, 0, 1, 2]), (some "b".toList, [2, 0, 5, 0, 2, 0]), (some "p".toList, [3, 0, 3, 0, 3, 6])] := by
  decide +kernel

/-- Non-vacuity of `C111_shapes_partial`: the group of this document. -/
example (env : NumEnv ℝ) : ∃ l, shapesOf env docT { skip := [tcncLayer] } 2 none
      ⟨el "g" [at' "transform" "translate(1,2)", at' "id" "a"] [el "path" [at' "id" "p"] [], el "g" [at' "style" "display:none"] [el "path" [] []]], [docT]⟩ = .ok l := by
  obtain ⟨l, h, -⟩ := C111_shapes_partial env docT { skip := [tcncLayer] } rfl 2
    ⟨el "g" [at' "transform" "translate(1,2)", at' "id" "a"] [el "path" [at' "id" "p"] [], el "g" [at' "style" "display:none"] [el "path" [] []]], [docT]⟩
    (by
      intro m hm
      simp only [At.chain, List.mem_cons, List.not_mem_nil, or_false] at hm
      rcases hm with rfl | rfl
      · exact ⟨⟨_, rfl⟩, ⟨_, rfl⟩⟩
      · exact ⟨⟨_, rfl⟩, ⟨_, rfl⟩⟩)
    (by
      intro b hb
      simp only [el, XNode.kids, placesList, XNode.places, List.mem_append, List.mem_cons, List.not_mem_nil, or_false] at hb
      rcases hb with rfl | rfl | rfl
      · exact ⟨⟨(by simp), rfl, ⟨_, rfl⟩, ⟨_, rfl⟩⟩, by simp [At.chain]⟩
      · exact ⟨⟨(by simp), rfl, ⟨_, rfl⟩, ⟨_, rfl⟩⟩, by simp [At.chain]⟩
      · exact ⟨⟨(by simp), rfl, ⟨_, rfl⟩, ⟨_, rfl⟩⟩, by simp [At.chain]⟩)
  exact ⟨l, h⟩

theorem docT_regular (env : NumEnv ℝ) : Regular env docT := by
  intro b hb
  simp only [docT, el, placesList, XNode.places, List.mem_append, List.mem_cons, List.not_mem_nil, or_false] at hb
  rcases hb with rfl | (rfl | rfl) | (rfl | (rfl | (rfl | rfl))) | rfl | (rfl | rfl) | (rfl | rfl) <;>
  exact ⟨(by simp), ⟨_, rfl⟩, ⟨_, rfl⟩, fun _ => ⟨⟨_, rfl⟩, ⟨_, rfl⟩⟩⟩

/-- Non-vacuity of `C112_references` and of `C112_endless`. -/
theorem docT_ends (env : NumEnv ℝ) : ∀ k ∈ (⟨docT, []⟩ : At).kids, ¬ Endless env docT { skip := [tcncLayer] } k := by
  intro k hk
  have hp := kid_place (doc_self docT) hk
  have : ∃ l, flatNode env docT { skip := [tcncLayer] } 4 (some Mat.ident) false k = .ok l := by
    simp only [At.kids, docT, el, XNode.kids, List.map_cons, List.map_nil, List.mem_cons, List.not_mem_nil, or_false] at hk
    rcases hk with rfl | rfl | rfl | rfl | rfl <;> exact ⟨_, rfl⟩
  obtain ⟨l, hl⟩ := this
  exact (flatNode_draws rfl (docT_regular env) 4 Mat.ident k l hp hl).2

example (env : NumEnv ℝ) : ∃ limit, ∃ l : List (At × Mat ℝ), (∀ m, limit ≤ m → shapesOf env docT { skip := [tcncLayer] } m none ⟨docT, []⟩ = .ok l) ∧
    ∀ s, s ∈ l ↔ ∃ k ∈ (⟨docT, []⟩ : At).kids, DrawnBy env docT { skip := [tcncLayer] } Mat.ident k s :=
  C112_references env docT { skip := [tcncLayer] } rfl (docT_regular env) Mat.ident rfl
    (fun h => by
      obtain ⟨b, h1, h2⟩ := C76_visible docT.toNode [] (by intro m hm; rw [List.mem_singleton.1 hm]; exact ⟨_, rfl⟩)
      have h3 : nodeVisible true false [docT.toNode] = .ok true := rfl
      rw [h3] at h1
      injection h1 with h1
      subst h1
      exact absurd (h2.2 ⟨_, List.mem_singleton.2 rfl, h⟩) (by simp))
    (docT_ends env)

/-- A group that contains a reference to itself. -/
def docC : XNode := el "svg" [] [el "g" [at' "id" "a"] [el "use" [at' "xlink:href" "#a"] []]]

/-- Non-vacuity of `C112_endless`. -/
example (env : NumEnv ℝ) : ∃ k ∈ (⟨docC, []⟩ : At).kids, Regular env docC ∧ Endless env docC {} k := by
  have hreg : Regular env docC := by
    intro b hb
    simp only [docC, el, placesList, XNode.places, List.mem_append, List.mem_cons, List.not_mem_nil, or_false] at hb
    rcases hb with rfl | rfl | rfl <;>
    exact ⟨(by simp), ⟨_, rfl⟩, ⟨_, rfl⟩, fun _ => ⟨⟨_, rfl⟩, ⟨_, rfl⟩⟩⟩
  let k : At := ⟨el "g" [at' "id" "a"] [el "use" [at' "xlink:href" "#a"] []], [docC]⟩
  let u : At := ⟨el "use" [at' "xlink:href" "#a"] [], [el "g" [at' "id" "a"] [el "use" [at' "xlink:href" "#a"] []], docC]⟩
  have hk : k ∈ (⟨docC, []⟩ : At).kids := List.mem_singleton.2 rfl
  have hu : u ∈ k.kids := List.mem_singleton.2 rfl
  have hkp := kid_place (doc_self docC) hk
  have h1 : Leads env docC {} k u := ⟨(visible_seen (hreg.chain hkp) rfl).1 rfl, .inl ⟨⟨rfl, rfl⟩, hu⟩⟩
  have h2 : Leads env docC {} u k := ⟨(visible_seen (hreg.chain (kid_place hkp hu)) rfl).1 rfl, .inr ⟨0, 0, rfl, rfl, ⟨'#', ['a'], rfl, rfl⟩, by
    show Except.ok _ = Except.ok _
    simp, by
    show Except.ok _ = Except.ok _
    simp⟩⟩
  exact ⟨k, hk, hreg, k, .refl, Relation.TransGen.tail (.single h1) h2⟩

end Verif.Svg
