import Verif.Geom.Hull
import Verif.Geom.Props5
import Verif.Cam.Props4

/-!
# C96: the convex hull
-/

set_option linter.unusedSectionVars false

namespace Verif.Geom
open Verif PyFloat PyTrig

/-! ## Specification -/

/-- Specification: `v` is the convex hull of the points `ps`, counter-clockwise: the vertices are distinct points of
`ps`; no point of `ps` lies to the right of the line from a vertex to the cyclically next one; with three vertices or
more, each three consecutive ones turn left; with two, all points are on the segment between them; with one, all points
are that vertex; without vertices there are no points. -/
structure IsHull (ps v : List (P ℝ)) : Prop where
  mem : ∀ q ∈ v, q ∈ ps
  nodup : v.Nodup
  left : ∀ (i : Nat) (a b : P ℝ), v[i]? = some a → v[(i + 1) % v.length]? = some b → ∀ p ∈ ps, 0 ≤ leftArea2 a b p
  convex : 3 ≤ v.length → ∀ (i : Nat) (a b c : P ℝ), v[i]? = some a → v[(i + 1) % v.length]? = some b →
    v[(i + 2) % v.length]? = some c → 0 < leftArea2 a b c
  segment : ∀ a b, v = [a, b] → ∀ p ∈ ps, ∃ t, 0 ≤ t ∧ t ≤ 1 ∧ p = segPt ⟨a, b⟩ t
  single : ∀ a, v = [a] → ∀ p ∈ ps, p = a
  empty : v = [] → ps = []

/-! ## Lexicographic order and turns -/

/-- `a` before `b`: to the left of it, or below it on the same vertical. -/
def lexLT (a b : P ℝ) : Prop := a.x < b.x ∨ a.x = b.x ∧ a.y < b.y
/-- `a` before `b` or equal. -/
def lexLE (a b : P ℝ) : Prop := a.x < b.x ∨ a.x = b.x ∧ a.y ≤ b.y

theorem lexLE_refl (a : P ℝ) : lexLE a a := .inr ⟨rfl, le_rfl⟩
theorem lexLT.le {a b : P ℝ} (h : lexLT a b) : lexLE a b := h.imp id fun h => ⟨h.1, h.2.le⟩
theorem lexLE.trans {a b c : P ℝ} (h : lexLE a b) (g : lexLE b c) : lexLE a c := by
  unfold lexLE at *
  rcases h with h | h <;> rcases g with g | g
  · exact .inl (h.trans g)
  · exact .inl (g.1 ▸ h)
  · exact .inl (h.1 ▸ g)
  · exact .inr ⟨h.1.trans g.1, h.2.trans g.2⟩
theorem lexLT.trans_le {a b c : P ℝ} (h : lexLT a b) (g : lexLE b c) : lexLT a c := by
  unfold lexLE lexLT at *
  rcases h with h | h <;> rcases g with g | g
  · exact .inl (h.trans g)
  · exact .inl (g.1 ▸ h)
  · exact .inl (h.1 ▸ g)
  · exact .inr ⟨h.1.trans g.1, h.2.trans_le g.2⟩
theorem lexLE.trans_lt {a b c : P ℝ} (h : lexLE a b) (g : lexLT b c) : lexLT a c := by
  unfold lexLE lexLT at *
  rcases h with h | h <;> rcases g with g | g
  · exact .inl (h.trans g)
  · exact .inl (g.1 ▸ h)
  · exact .inl (h.1 ▸ g)
  · exact .inr ⟨h.1.trans g.1, h.2.trans_lt g.2⟩
theorem lexLT.ne {a b : P ℝ} (h : lexLT a b) : a ≠ b := by
  rintro rfl
  rcases h with h | h
  · exact lt_irrefl _ h
  · exact lt_irrefl _ h.2
theorem lexLE.lt_or_eq {a b : P ℝ} (h : lexLE a b) : lexLT a b ∨ a = b := by
  rcases h with h | ⟨h, g⟩
  · exact .inl (.inl h)
  · rcases g.lt_or_eq with g | g
    · exact .inl (.inr ⟨h, g⟩)
    · exact .inr (P.ext h g)
theorem lexLT.not_le {a b : P ℝ} (h : lexLT a b) : ¬ lexLE b a := fun g => (h.trans_le g).ne rfl

theorem turn_eq (p q r : P ℝ) : turn p q r = 1 ↔ 0 < leftArea2 p q r := by
  unfold turn pcmp0 leftArea2
  simp only [real_lt, real_sub, real_mul, real_zero, decide_eq_true_eq]
  split
  · constructor
    · intro h; exact absurd h (by decide)
    · intro h; linarith
  · split
    · simp [*]
    · constructor
      · intro h; exact absurd h (by decide)
      · intro h; contradiction

/-- Merging two edges of a chain at a vertex that is not to the right of the merged edge. -/
theorem merge_first {a b r p : P ℝ} (hab : lexLT a b) (hbr : lexLT b r) (h : leftArea2 a b r ≤ 0) (h1 : lexLE a p)
    (h2 : lexLE p b) (h3 : 0 ≤ leftArea2 a b p) : 0 ≤ leftArea2 a r p := by
  unfold leftArea2 lexLT lexLE at *
  rcases lt_or_ge a.x b.x with hx | hx
  · have hw : 0 ≤ p.x - a.x := by rcases h1 with h | h <;> linarith [h]
    have hv : 0 ≤ r.x - b.x := by rcases hbr with h | h <;> linarith [h]
    by_contra hc
    push Not at hc
    have : (b.x - a.x) * ((r.x - a.x) * (p.y - a.y) - (p.x - a.x) * (r.y - a.y))
      = ((b.x - a.x) * (p.y - a.y) - (p.x - a.x) * (b.y - a.y)) * (r.x - a.x)
        - ((b.x - a.x) * (r.y - a.y) - (r.x - a.x) * (b.y - a.y)) * (p.x - a.x) := by ring
    have h4 := mul_nonneg h3 (show 0 ≤ r.x - a.x by linarith)
    have h5 := mul_nonneg (neg_nonneg.2 h) hw
    have h6 := mul_neg_of_pos_of_neg (sub_pos.2 hx) hc
    nlinarith
  · have e1 : a.x = b.x := by rcases hab with h | h <;> linarith [h]
    have e2 : p.x = a.x := by rcases h1 with h | h <;> rcases h2 with g | g <;> linarith [h, g]
    have hy : a.y ≤ p.y := by rcases h1 with h | h <;> linarith [h]
    have hv : 0 ≤ r.x - a.x := by rcases hbr with h | h <;> linarith [h]
    rw [e2]
    nlinarith [mul_nonneg hv (sub_nonneg.2 hy)]

/-- Reflection in the origin. -/
def nP (p : P ℝ) : P ℝ := ⟨-p.x, -p.y⟩

theorem nP_nP (p : P ℝ) : nP (nP p) = p := by simp [nP]
theorem nP_area (a b c : P ℝ) : leftArea2 (nP a) (nP b) (nP c) = leftArea2 a b c := by unfold leftArea2 nP; ring
theorem nP_lt {a b : P ℝ} (h : lexLT a b) : lexLT (nP b) (nP a) := by
  unfold lexLT nP at *
  rcases h with h | h
  · exact .inl (neg_lt_neg h)
  · exact .inr ⟨by rw [h.1], neg_lt_neg h.2⟩
theorem nP_le {a b : P ℝ} (h : lexLE a b) : lexLE (nP b) (nP a) := by
  unfold lexLE nP at *
  rcases h with h | h
  · exact .inl (neg_lt_neg h)
  · exact .inr ⟨by rw [h.1], neg_le_neg h.2⟩

theorem area_rot (a b c : P ℝ) : leftArea2 a b c = leftArea2 b c a := by unfold leftArea2; ring
theorem area_swap (a b c : P ℝ) : leftArea2 a b c = -leftArea2 b a c := by unfold leftArea2; ring

theorem merge_second {a b r p : P ℝ} (hab : lexLT a b) (hbr : lexLT b r) (h : leftArea2 a b r ≤ 0) (h1 : lexLE b p)
    (h2 : lexLE p r) (h3 : 0 ≤ leftArea2 b r p) : 0 ≤ leftArea2 a r p := by
  rcases lt_or_ge b.x r.x with hx | hx
  · unfold leftArea2 lexLT lexLE at *
    have hw : 0 ≤ r.x - p.x := by rcases h2 with h | h <;> linarith [h]
    have hv : 0 ≤ b.x - a.x := by rcases hab with h | h <;> linarith [h]
    by_contra hc
    push Not at hc
    have h4 := mul_nonneg h3 (show 0 ≤ r.x - a.x by linarith)
    have h5 := mul_nonneg (neg_nonneg.2 h) hw
    have h6 := mul_neg_of_pos_of_neg (sub_pos.2 hx) hc
    nlinarith
  · unfold leftArea2 lexLT lexLE at *
    have e1 : b.x = r.x := by rcases hbr with h | h <;> linarith [h]
    have hy : b.y < r.y := by rcases hbr with h | h <;> linarith [h]
    have e2 : p.x = r.x := by rcases h1 with h | h <;> rcases h2 with g | g <;> linarith [h, g]
    have hab' : a.x ≤ b.x := by rcases hab with h | h <;> linarith [h]
    have hax : a.x = b.x := by
      by_contra hc
      have : a.x < b.x := lt_of_le_of_ne hab' hc
      rw [← e1] at h
      nlinarith [mul_pos (sub_pos.2 this) (sub_pos.2 hy)]
    rw [e2, ← e1, hax]
    nlinarith

/-- Along a chain that turns left, what is left of a later edge is left of an earlier one. -/
theorem left_back {a b c p : P ℝ} (hab : lexLT a b) (hbc : lexLT b c) (h : 0 < leftArea2 a b c) (h1 : lexLE b p)
    (h2 : 0 ≤ leftArea2 b c p) : 0 ≤ leftArea2 a b p := by
  unfold leftArea2 lexLT lexLE at *
  have hu : 0 ≤ b.x - a.x := by rcases hab with h | h <;> linarith [h]
  have hw : 0 ≤ p.x - b.x := by rcases h1 with h | h <;> linarith [h]
  rcases lt_or_ge b.x c.x with hx | hx
  · by_contra hc
    push Not at hc
    have h4 := mul_nonneg h2 hu
    have h5 := mul_nonneg h.le hw
    have h6 := mul_neg_of_pos_of_neg (sub_pos.2 hx) hc
    nlinarith
  · have e1 : b.x = c.x := by rcases hbc with h | h <;> linarith [h]
    have hy : b.y < c.y := by rcases hbc with h | h <;> linarith [h]
    have e2 : p.x = b.x := by
      by_contra hc
      have : 0 < p.x - b.x := lt_of_le_of_ne hw (fun e => hc (by linarith))
      rw [← e1] at h2
      nlinarith [mul_pos this (sub_pos.2 hy)]
    have hp : b.y ≤ p.y := by rcases h1 with h | h <;> linarith [h]
    rw [e2]
    nlinarith [mul_nonneg hu (sub_nonneg.2 hp)]

/-- ... and the other way round. -/
theorem left_forth {a b c p : P ℝ} (hab : lexLT a b) (hbc : lexLT b c) (h : 0 < leftArea2 a b c) (h1 : lexLE p b)
    (h2 : 0 ≤ leftArea2 a b p) : 0 ≤ leftArea2 b c p := by
  unfold leftArea2 lexLT lexLE at *
  have hu : 0 ≤ c.x - b.x := by rcases hbc with h | h <;> linarith [h]
  have hw : 0 ≤ b.x - p.x := by rcases h1 with h | h <;> linarith [h]
  rcases lt_or_ge a.x b.x with hx | hx
  · by_contra hc
    push Not at hc
    have h4 := mul_nonneg h2 hu
    have h5 := mul_nonneg h.le hw
    have h6 := mul_neg_of_pos_of_neg (sub_pos.2 hx) hc
    nlinarith
  · have e1 : a.x = b.x := by rcases hab with h | h <;> linarith [h]
    have hy : a.y < b.y := by rcases hab with h | h <;> linarith [h]
    rw [e1] at h
    nlinarith [mul_nonneg hu (sub_pos.2 hy).le]

/-! ## Chains -/

/-- Every three consecutive points of the stack turn left (the deepest first). -/
def Conv : List (P ℝ) → Prop
  | c :: b :: a :: h => 0 < leftArea2 a b c ∧ Conv (b :: a :: h)
  | _ => True

/-- The stack is strictly increasing from the bottom to the top. -/
def Desc (h : List (P ℝ)) : Prop := h.Pairwise fun b a => lexLT a b

/-- The point is over an edge of the stack (or is its only point). -/
def Covers : List (P ℝ) → P ℝ → Prop
  | b :: a :: h, p => (lexLE a p ∧ lexLE p b ∧ 0 ≤ leftArea2 a b p) ∨ Covers (a :: h) p
  | [a], p => p = a
  | [], _ => False

theorem Conv.tail {b : P ℝ} {h : List (P ℝ)} (g : Conv (b :: h)) : Conv h := by
  match h with
  | [] => trivial
  | [_] => trivial
  | _ :: _ :: _ => exact g.2

theorem covers_le {b p : P ℝ} {h : List (P ℝ)} (hd : Desc (b :: h)) (hc : Covers (b :: h) p) : lexLE p b := by
  induction h generalizing b with
  | nil => exact (show p = b from hc) ▸ lexLE_refl _
  | cons a h ih =>
    rcases hc with hc | hc
    · exact hc.2.1
    · exact (ih hd.of_cons hc).trans ((List.pairwise_cons.1 hd).1 a (by simp)).le

/-- Whatever is over a left-turning chain is to the left of each of its edges: the first edge. -/
theorem covers_left_top {c b p : P ℝ} {h : List (P ℝ)} (hd : Desc (c :: b :: h)) (hv : Conv (c :: b :: h))
    (hp : Covers (c :: b :: h) p) : 0 ≤ leftArea2 b c p := by
  induction h generalizing c b with
  | nil =>
    rcases hp with hp | hp
    · exact hp.2.2
    · rw [show p = b from hp]
      unfold leftArea2; nlinarith
  | cons a h ih =>
    rcases hp with hp | hp
    · exact hp.2.2
    · have h1 := ih hd.of_cons hv.2 hp
      have hab : lexLT a b := (List.pairwise_cons.1 hd.of_cons).1 a (by simp)
      have hbc : lexLT b c := (List.pairwise_cons.1 hd).1 b (by simp)
      exact left_forth hab hbc hv.1 (covers_le hd.of_cons hp) h1

/-- Whatever is after the top of a chain and to the left of its top edge is to the left of all its edges. -/
theorem left_all {h : List (P ℝ)} {c b p : P ℝ} (hd : Desc (c :: b :: h)) (hv : Conv (c :: b :: h)) (hp : lexLE b p)
    (h1 : 0 ≤ leftArea2 b c p) (i : Nat) (u w : P ℝ) (hu : (c :: b :: h)[i + 1]? = some u)
    (hw : (c :: b :: h)[i]? = some w) : 0 ≤ leftArea2 u w p := by
  induction h generalizing c b i with
  | nil =>
    match i, hu, hw with
    | 0, hu, hw =>
      obtain rfl : b = u := by simpa using hu
      obtain rfl : c = w := by simpa using hw
      exact h1
    | _ + 1, hu, _ => simp at hu
  | cons a h ih =>
    have hab : lexLT a b := (List.pairwise_cons.1 hd.of_cons).1 a (by simp)
    have hbc : lexLT b c := (List.pairwise_cons.1 hd).1 b (by simp)
    match i, hu, hw with
    | 0, hu, hw =>
      obtain rfl : b = u := by simpa using hu
      obtain rfl : c = w := by simpa using hw
      exact h1
    | i + 1, hu, hw =>
      exact ih hd.of_cons hv.2 (hab.le.trans hp) (left_back hab hbc hv.1 hp h1) i (by simpa using hu) (by simpa using hw)

theorem covers_left {h : List (P ℝ)} {p : P ℝ} (hd : Desc h) (hv : Conv h) (hp : Covers h p) (i : Nat) (u w : P ℝ)
    (hu : h[i + 1]? = some u) (hw : h[i]? = some w) : 0 ≤ leftArea2 u w p := by
  induction h generalizing i with
  | nil => simp at hu
  | cons c h ih =>
    match h, hp with
    | [], _ => simp at hu
    | b :: h, hp =>
      match i, hu, hw with
      | 0, hu, hw =>
        obtain rfl : b = u := by simpa using hu
        obtain rfl : c = w := by simpa using hw
        exact covers_left_top hd hv hp
      | i + 1, hu, hw =>
        rcases hp with hp | hp
        · exact left_all hd hv hp.1 hp.2.2 (i + 1) u w hu hw
        · exact ih hd.of_cons hv.tail hp i (by simpa using hu) (by simpa using hw)

theorem covers_mono {r b : P ℝ} {h h' : List (P ℝ)} {p : P ℝ} (g : Covers (b :: h) p → Covers (b :: h') p)
    (hp : Covers (r :: b :: h) p) : Covers (r :: b :: h') p := hp.imp id g

/-- Popping keeps every point over the chain. -/
theorem popRight_covers {r : P ℝ} {h : List (P ℝ)} (hd : Desc (r :: h)) {p : P ℝ} (hp : Covers (r :: h) p) :
    Covers (r :: popRight r h) p := by
  induction h with
  | nil => exact hp
  | cons b h ih =>
    match h, hd, hp, ih with
    | [], _, hp, _ => exact hp
    | a :: h, hd, hp, ih =>
      unfold popRight
      split
      · rename_i ht
        have ht : leftArea2 a b r ≤ 0 := not_lt.1 fun h => ht ((turn_eq a b r).2 h)
        have hbr : lexLT b r := (List.pairwise_cons.1 hd).1 b (by simp)
        have hab : lexLT a b := (List.pairwise_cons.1 hd.of_cons).1 a (by simp)
        have hd' : Desc (r :: a :: h) := by
          unfold Desc at *
          rw [List.pairwise_cons] at hd ⊢
          exact ⟨fun q hq => hd.1 q (by simp [hq]), hd.2.of_cons⟩
        apply ih hd'
        rcases hp with ⟨h1, h2, h3⟩ | ⟨h1, h2, h3⟩ | hp
        · exact .inl ⟨hab.le.trans h1, h2, merge_second hab hbr ht h1 h2 h3⟩
        · exact .inl ⟨h1, h2.trans hbr.le, merge_first hab hbr ht h1 h2 h3⟩
        · exact .inr hp
      · exact hp

theorem popRight_suffix (r : P ℝ) (h : List (P ℝ)) : popRight r h <:+ h := by
  induction h with
  | nil => exact List.suffix_rfl
  | cons b h ih =>
    match h, ih with
    | [], _ => exact List.suffix_rfl
    | a :: h, ih =>
      unfold popRight
      split
      · exact ih.trans (List.suffix_cons _ _)
      · exact List.suffix_rfl

theorem popRight_ne_nil (r : P ℝ) {h : List (P ℝ)} (hne : h ≠ []) : popRight r h ≠ [] := by
  induction h with
  | nil => exact absurd rfl hne
  | cons b h ih =>
    match h, ih with
    | [], _ => simp [popRight]
    | a :: h, ih =>
      unfold popRight
      split
      · exact ih (by simp)
      · simp

theorem popRight_last (r : P ℝ) (h : List (P ℝ)) : (popRight r h).getLast? = h.getLast? := by
  induction h with
  | nil => rfl
  | cons b h ih =>
    match h, ih with
    | [], _ => simp [popRight]
    | a :: h, ih =>
      unfold popRight
      split
      · rw [ih]; simp
      · rfl

theorem Conv.suffix {h g : List (P ℝ)} (hv : Conv h) (hs : g <:+ h) : Conv g := by
  obtain ⟨t, rfl⟩ := hs
  induction t with
  | nil => exact hv
  | cons a t ih => exact ih hv.tail

theorem Desc.suffix {h g : List (P ℝ)} (hv : Desc h) (hs : g <:+ h) : Desc g := hv.sublist hs.sublist

theorem popRight_conv {r : P ℝ} {h : List (P ℝ)} (hv : Conv h) : Conv (r :: popRight r h) := by
  induction h with
  | nil => trivial
  | cons b h ih =>
    match h, ih with
    | [], _ => trivial
    | a :: h, ih =>
      unfold popRight
      split
      · exact ih hv.tail
      · rename_i ht
        exact ⟨(turn_eq a b r).1 (not_not.1 ht), hv⟩

/-- Points that the tolerance of the comparison does not confuse. -/
def Separated (eps : ℝ) (ps : List (P ℝ)) : Prop := ∀ p ∈ ps, ∀ q ∈ ps, p = q ∨ eps ^ 2 ≤ sqDist p q

/-- What is known of the stack after the points `done`, in increasing order. -/
structure ChainOf (done h : List (P ℝ)) : Prop where
  conv : Conv h
  desc : Desc h
  cover : ∀ p ∈ done, Covers h p
  mem : ∀ q ∈ h, q ∈ done
  top : h.head? = done.getLast?
  bot : h.getLast? = done.head?

theorem ne_of_sep {eps : ℝ} {ps : List (P ℝ)} (hs : Separated eps ps) {a b : P ℝ} (ha : a ∈ ps) (hb : b ∈ ps)
    (h : a ≠ b) : a.ne eps b = true := by
  have := (hs a ha b hb).resolve_left h
  have := (eq_false_iff eps a b).2 this
  unfold P.eq at this
  unfold P.ne
  rw [this]; rfl

theorem keepLeft_step {eps : ℝ} (heps : 0 < eps) {done h : List (P ℝ)} {r : P ℝ} (hs : Separated eps (done ++ [r]))
    (hc : ChainOf done h) (hle : ∀ p ∈ done, lexLE p r) : ChainOf (done ++ [r]) (keepLeft eps h r) := by
  rcases List.eq_nil_or_concat done with rfl | ⟨d, t, rfl⟩
  · have hh : h = [] := by
      match h, hc.mem with
      | [], _ => rfl
      | q :: h, hm => simpa using hm q (by simp)
    subst hh
    refine ⟨trivial, List.pairwise_singleton _ _, ?_, ?_, rfl, rfl⟩
    · intro p hp; simpa [keepLeft, popRight, Covers] using hp
    · intro p hp; simpa [keepLeft, popRight] using hp
  rw [List.concat_eq_append] at *
  have htop : h.head? = some t := by rw [hc.top]; simp
  obtain ⟨h', rfl⟩ : ∃ h', h = t :: h' := by
    match h, htop with
    | q :: h, e => exact ⟨h, by simpa using e⟩
  have hhead : (d ++ [t] ++ [r]).head? = (d ++ [t]).head? := by cases d <;> rfl
  rcases (hle t (by simp)).lt_or_eq with htr | rfl
  · -- a new point
    have hdr : Desc (r :: t :: h') := by
      refine List.pairwise_cons.2 ⟨?_, hc.desc⟩
      intro q hq
      rcases List.mem_cons.1 hq with rfl | hq
      · exact htr
      · exact ((List.pairwise_cons.1 hc.desc).1 q hq).trans_le htr.le
    have hsuf := popRight_suffix r (t :: h')
    have hcov : ∀ p ∈ d ++ [t] ++ [r], Covers (r :: popRight r (t :: h')) p := by
      intro p hp
      apply popRight_covers hdr
      rcases List.mem_append.1 hp with hp | hp
      · exact .inr (hc.cover p hp)
      · obtain rfl : p = r := by simpa using hp
        exact .inl ⟨htr.le, lexLE_refl _, by unfold leftArea2; nlinarith⟩
    have hconv := popRight_conv (r := r) hc.conv
    have hlast := popRight_last r (t :: h')
    have hne := popRight_ne_nil r (h := t :: h') (by simp)
    have hkeep : keepLeft eps (t :: h') r = r :: popRight r (t :: h') := by
      unfold keepLeft
      generalize popRight r (t :: h') = g at *
      match g, hne, hsuf with
      | [], hne, _ => exact absurd rfl hne
      | b :: g, _, hsuf =>
        have hb : b ∈ t :: h' := hsuf.subset (by simp)
        have hlt : lexLT b r := (List.pairwise_cons.1 hdr).1 b hb
        show (if b.ne eps r = true then _ else _) = _
        rw [if_pos (ne_of_sep hs (List.mem_append_left _ (hc.mem b hb)) (by simp) hlt.ne)]
    rw [hkeep]
    refine ⟨hconv, hdr.sublist (hsuf.sublist.cons_cons r), hcov, ?_, by simp, ?_⟩
    · intro q hq
      rcases List.mem_cons.1 hq with rfl | hq
      · simp
      · exact List.mem_append_left _ (hc.mem q (hsuf.subset hq))
    · rw [hhead, ← hc.bot, ← hlast]
      generalize popRight r (t :: h') = g at *
      match g, hne with
      | b :: g, _ => simp
  · -- the same point again
    have hsame : keepLeft eps (t :: h') t = t :: h' := by
      match h', hc with
      | [], _ =>
        unfold keepLeft popRight
        have : t.ne eps t = false := by
          have : t.eq eps t = true := (eq_iff eps t t).2 (by unfold sqDist; nlinarith)
          unfold P.eq at this
          unfold P.ne
          rw [this]; rfl
        show (if t.ne eps t = true then _ else _) = _
        rw [this]; rfl
      | a :: h'', hc =>
        have h1 : popRight t (t :: a :: h'') = a :: h'' := by
          rw [popRight, if_pos]
          · match h'', hc with
            | [], _ => rfl
            | z :: h3, hc =>
              rw [popRight, if_neg]
              exact not_not.2 ((turn_eq z a t).2 hc.conv.1)
          · rw [Ne, turn_eq]
            unfold leftArea2
            intro h; nlinarith
        unfold keepLeft
        rw [h1]
        have hlt : lexLT a t := (List.pairwise_cons.1 hc.desc).1 a (by simp)
        show (if a.ne eps t = true then _ else _) = _
        rw [if_pos (ne_of_sep hs (List.mem_append_left _ (hc.mem a (by simp))) (by simp) hlt.ne)]
    rw [hsame]
    refine ⟨hc.conv, hc.desc, ?_, fun q hq => List.mem_append_left _ (hc.mem q hq), by simp, ?_⟩
    · intro p hp
      apply hc.cover p
      rcases List.mem_append.1 hp with hp | hp
      · exact hp
      · rw [show p = t by simpa using hp]; simp
    · rw [hhead, ← hc.bot]

theorem fold_chain {eps : ℝ} (heps : 0 < eps) (rest : List (P ℝ)) {done h : List (P ℝ)} (hc : ChainOf done h)
    (hs : Separated eps (done ++ rest)) (hsort : (done ++ rest).Pairwise lexLE) :
    ChainOf (done ++ rest) (rest.foldl (keepLeft eps) h) := by
  induction rest generalizing done h with
  | nil => simpa using hc
  | cons r rest ih =>
    have e : done ++ r :: rest = (done ++ [r]) ++ rest := by simp
    rw [e] at hs hsort ⊢
    refine ih (keepLeft_step heps ?_ hc ?_) hs hsort
    · exact fun p hp q hq => hs p (List.mem_append_left _ hp) q (List.mem_append_left _ hq)
    · intro p hp
      have := (List.pairwise_append.1 hsort).1
      exact (List.pairwise_append.1 this).2.2 p hp r (by simp)

theorem chain_sorted {eps : ℝ} (heps : 0 < eps) {s : List (P ℝ)} (hs : Separated eps s) (hsort : s.Pairwise lexLE) :
    ChainOf s (s.foldl (keepLeft eps) []) :=
  fold_chain heps s (done := []) ⟨trivial, List.Pairwise.nil, by simp, by simp, rfl, rfl⟩ hs hsort

/-! ## The two halves -/

/-- Half of a hull, in list order: `lt` is the direction of travel. -/
structure Half (lt : P ℝ → P ℝ → Prop) (ps : List (P ℝ)) (m M : P ℝ) (L : List (P ℝ)) : Prop where
  mem : ∀ q ∈ L, q ∈ ps
  sorted : L.Pairwise lt
  left : ∀ (i : Nat) (a b : P ℝ), L[i]? = some a → L[i + 1]? = some b → ∀ p ∈ ps, 0 ≤ leftArea2 a b p
  turn : ∀ (i : Nat) (a b c : P ℝ), L[i]? = some a → L[i + 1]? = some b → L[i + 2]? = some c → 0 < leftArea2 a b c
  first : L.head? = some m
  last : L.getLast? = some M

theorem conv_idx {h : List (P ℝ)} (hv : Conv h) (i : Nat) (a b c : P ℝ) (hc : h[i]? = some c) (hb : h[i + 1]? = some b)
    (ha : h[i + 2]? = some a) : 0 < leftArea2 a b c := by
  induction h generalizing i with
  | nil => simp at hc
  | cons x h ih =>
    match i with
    | 0 =>
      match h, hv, hc, hb, ha with
      | [], _, _, hb, _ => simp at hb
      | [y], _, _, _, ha => simp at ha
      | y :: z :: h, hv, hc, hb, ha =>
        obtain rfl : x = c := by simpa using hc
        obtain rfl : y = b := by simpa using hb
        obtain rfl : z = a := by simpa using ha
        exact hv.1
    | i + 1 => exact ih hv.tail i (by simpa using hc) (by simpa using hb) (by simpa using ha)

theorem rev_idx {α : Type} {h : List α} {i : Nat} {a : α} (ha : h.reverse[i]? = some a) :
    i < h.length ∧ h[h.length - 1 - i]? = some a := by
  have hi : i < h.length := by simpa using (List.getElem?_eq_some_iff.1 ha).1
  rw [List.getElem?_reverse hi] at ha
  exact ⟨hi, ha⟩

theorem half_of_chain {s h : List (P ℝ)} {m M : P ℝ} (hc : ChainOf s h) (h0 : s.head? = some m)
    (h1 : s.getLast? = some M) : Half lexLT s m M h.reverse where
  mem := fun q hq => hc.mem q (by simpa using hq)
  sorted := List.pairwise_reverse.2 hc.desc
  left := by
    intro i a b ha hb p hp
    obtain ⟨hi, ha⟩ := rev_idx ha
    obtain ⟨hj, hb⟩ := rev_idx hb
    refine covers_left hc.desc hc.conv (hc.cover p hp) (h.length - 1 - (i + 1)) a b ?_ hb
    rw [← ha]; congr 1; omega
  turn := by
    intro i a b c ha hb hcc
    obtain ⟨hi, ha⟩ := rev_idx ha
    obtain ⟨hj, hb⟩ := rev_idx hb
    obtain ⟨hk, hcc⟩ := rev_idx hcc
    refine conv_idx hc.conv (h.length - 1 - (i + 2)) a b c hcc ?_ ?_
    · rw [← hb]; congr 1; omega
    · rw [← ha]; congr 1; omega
  first := by rw [List.head?_reverse, hc.bot, h0]
  last := by rw [List.getLast?_reverse, hc.top, h1]

theorem turn_nP (a b c : P ℝ) : turn (nP a) (nP b) (nP c) = turn a b c := by
  unfold turn nP
  simp only [real_sub, real_mul]
  congr 1; ring

theorem ne_nP (eps : ℝ) (a b : P ℝ) : (nP a).ne eps (nP b) = a.ne eps b := by
  unfold P.ne P.almostEq nP
  simp only [real_sub, real_mul, real_add, real_lt]
  congr 3
  ring_nf

theorem popRight_nP (r : P ℝ) (h : List (P ℝ)) : popRight (nP r) (h.map nP) = (popRight r h).map nP := by
  induction h with
  | nil => rfl
  | cons b h ih =>
    match h, ih with
    | [], _ => rfl
    | a :: h, ih =>
      simp only [List.map_cons] at ih ⊢
      unfold popRight
      rw [turn_nP]
      split
      · exact ih
      · rfl

theorem keepLeft_nP (eps : ℝ) (h : List (P ℝ)) (r : P ℝ) : keepLeft eps (h.map nP) (nP r) = (keepLeft eps h r).map nP := by
  unfold keepLeft
  rw [popRight_nP]
  cases popRight r h with
  | nil => rfl
  | cons b g =>
    simp only [List.map_cons]
    rw [ne_nP]
    split <;> rfl

theorem halfHull_nP (eps : ℝ) (s : List (P ℝ)) : halfHull eps (s.map nP) = (halfHull eps s).map nP := by
  unfold halfHull
  rw [List.map_reverse]
  congr 1
  suffices ∀ h : List (P ℝ), (s.map nP).foldl (keepLeft eps) (h.map nP) = (s.foldl (keepLeft eps) h).map nP from this []
  induction s with
  | nil => intro h; rfl
  | cons a s ih => intro h; simp only [List.map_cons, List.foldl_cons, keepLeft_nP, ih]

theorem map_nP_nP (s : List (P ℝ)) : (s.map nP).map nP = s := by
  rw [List.map_map]
  conv_rhs => rw [← List.map_id s]
  exact List.map_congr_left fun p _ => nP_nP p

theorem nP_get {L : List (P ℝ)} {i : Nat} {a : P ℝ} (h : L[i]? = some a) : (L.map nP)[i]? = some (nP a) := by
  rw [List.getElem?_map, h]; rfl

/-- The lower half. -/
theorem lower_half {eps : ℝ} (heps : 0 < eps) {s : List (P ℝ)} (hs : Separated eps s) (hsort : s.Pairwise lexLE)
    {m M : P ℝ} (h0 : s.head? = some m) (h1 : s.getLast? = some M) : Half lexLT s m M (halfHull eps s) :=
  half_of_chain (chain_sorted heps hs hsort) h0 h1

/-- The upper half, by reflection. -/
theorem upper_half {eps : ℝ} (heps : 0 < eps) {s : List (P ℝ)} (hs : Separated eps s) (hsort : s.Pairwise lexLE)
    {m M : P ℝ} (h0 : s.head? = some m) (h1 : s.getLast? = some M) :
    Half (fun a b => lexLT b a) s M m (halfHull eps s.reverse) := by
  have hs' : Separated eps (s.reverse.map nP) := by
    intro p hp q hq
    obtain ⟨p', hp', rfl⟩ := List.mem_map.1 hp
    obtain ⟨q', hq', rfl⟩ := List.mem_map.1 hq
    rcases hs p' (List.mem_reverse.1 hp') q' (List.mem_reverse.1 hq') with h | h
    · exact .inl (by rw [h])
    · refine .inr (h.trans_eq ?_)
      unfold sqDist nP; ring
  have hsort' : (s.reverse.map nP).Pairwise lexLE := by
    rw [List.pairwise_map]
    exact (List.pairwise_reverse.2 hsort).imp fun h => nP_le h
  have hh := lower_half heps hs' hsort' (m := nP M) (M := nP m) (by rw [List.head?_map, List.head?_reverse, h1]; rfl)
    (by rw [List.getLast?_map, List.getLast?_reverse, h0]; rfl)
  have e : halfHull eps s.reverse = (halfHull eps (s.reverse.map nP)).map nP := by rw [halfHull_nP, map_nP_nP]
  rw [e]
  generalize halfHull eps (s.reverse.map nP) = L at *
  have hget : ∀ {i : Nat} {a : P ℝ}, (L.map nP)[i]? = some a → L[i]? = some (nP a) := by
    intro i a h
    have := nP_get h
    rwa [map_nP_nP] at this
  refine ⟨?_, ?_, ?_, ?_, ?_, ?_⟩
  · intro q hq
    obtain ⟨p, hp, rfl⟩ := List.mem_map.1 hq
    obtain ⟨r, hr, hr'⟩ := List.mem_map.1 (hh.mem p hp)
    rw [← hr', nP_nP]; simpa using hr
  · rw [List.pairwise_map]
    exact hh.sorted.imp fun h => nP_lt h
  · intro i a b ha hb p hp
    have := hh.left i _ _ (hget ha) (hget hb) (nP p) (List.mem_map.2 ⟨p, by simpa using hp, rfl⟩)
    rwa [nP_area] at this
  · intro i a b c ha hb hc
    have := hh.turn i _ _ _ (hget ha) (hget hb) (hget hc)
    rwa [nP_area] at this
  · rw [List.head?_map, hh.first]; simp [nP_nP]
  · rw [List.getLast?_map, hh.last]; simp [nP_nP]

/-! ## Joining the halves -/

/-- The vertices of the joined hull, by position. -/
theorem join_get {L U : List (P ℝ)} (hL : 2 ≤ L.length) (hU : 2 ≤ U.length) (hM : L.getLast? = U.head?)
    (hm : U.getLast? = L.head?) {i : Nat} {a b : P ℝ} (ha : (L ++ (U.drop 1).dropLast)[i]? = some a)
    (hb : (L ++ (U.drop 1).dropLast)[(i + 1) % (L ++ (U.drop 1).dropLast).length]? = some b) :
    (i + 1 < L.length ∧ L[i]? = some a ∧ L[i + 1]? = some b) ∨
    (L.length ≤ i + 1 ∧ U[i + 1 - L.length]? = some a ∧ U[i + 1 - L.length + 1]? = some b) := by
  have hn : (L ++ (U.drop 1).dropLast).length = L.length + U.length - 2 := by
    simp only [List.length_append, List.length_dropLast, List.length_drop]; omega
  rw [hn] at hb
  have hi : i < L.length + U.length - 2 := by rw [← hn]; exact (List.getElem?_eq_some_iff.1 ha).1
  have key : ∀ k, L.length ≤ k → k < L.length + U.length - 2 →
      (L ++ (U.drop 1).dropLast)[k]? = U[k - L.length + 1]? := by
    intro k h1 h2
    rw [List.getElem?_append_right h1, List.getElem?_dropLast, if_pos (by rw [List.length_drop]; omega),
      List.getElem?_drop]
    congr 1; omega
  have keyL : ∀ k, k < L.length → (L ++ (U.drop 1).dropLast)[k]? = L[k]? := fun k h => List.getElem?_append_left h
  rcases lt_or_ge (i + 1) L.length with h | h
  · left
    rw [Nat.mod_eq_of_lt (by omega), keyL _ h] at hb
    rw [keyL _ (by omega)] at ha
    exact ⟨h, ha, hb⟩
  · right
    refine ⟨h, ?_, ?_⟩
    · rcases Nat.eq_or_lt_of_le h with e | e
      · rw [keyL _ (by omega)] at ha
        have e1 : i = L.length - 1 := by omega
        rw [e1, ← List.getLast?_eq_getElem?, hM, List.head?_eq_getElem?] at ha
        rw [← ha]; congr 1; omega
      · rw [key _ (by omega) hi] at ha
        rw [← ha]; congr 1; omega
    · rcases Nat.lt_or_ge (i + 1) (L.length + U.length - 2) with e | e
      · rw [Nat.mod_eq_of_lt e, key _ h e] at hb
        exact hb
      · have e1 : i + 1 = L.length + U.length - 2 := by omega
        rw [e1, Nat.mod_self, keyL _ (by omega), ← List.head?_eq_getElem?, ← hm, List.getLast?_eq_getElem?] at hb
        rw [← hb]; congr 1; omega

/-- Three points on one line. -/
theorem collinear_area {a b x y z : P ℝ} (hab : a ≠ b) (hx : leftArea2 a b x = 0) (hy : leftArea2 a b y = 0)
    (hz : leftArea2 a b z = 0) : leftArea2 x y z = 0 := by
  unfold leftArea2 at *
  rcases ne_or_eq a.x b.x with h | h
  · have h' : b.x - a.x ≠ 0 := sub_ne_zero.2 (Ne.symm h)
    have : (b.x - a.x) * ((y.x - x.x) * (z.y - x.y) - (z.x - x.x) * (y.y - x.y)) = 0 := by
      linear_combination (y.x - x.x) * hz - (z.x - x.x) * hy + (z.x - y.x) * hx
    exact (mul_eq_zero.1 this).resolve_left h'
  · have h' : b.y - a.y ≠ 0 := by
      intro e
      exact hab (P.ext h (by linarith))
    have : (b.y - a.y) * ((y.x - x.x) * (z.y - x.y) - (z.x - x.x) * (y.y - x.y)) = 0 := by
      linear_combination (y.y - x.y) * hz - (z.y - x.y) * hy + (z.y - y.y) * hx
    exact (mul_eq_zero.1 this).resolve_left h'

/-- At an end of the chains: if the two edges are on one line then so are all points. -/
theorem junction {a b c p : P ℝ} (h : (lexLT a b ∧ lexLT c b) ∨ (lexLT b a ∧ lexLT b c)) (h1 : leftArea2 a b c = 0)
    (h2 : 0 ≤ leftArea2 a b p) (h3 : 0 ≤ leftArea2 b c p) : leftArea2 a b p = 0 := by
  refine le_antisymm ?_ h2
  unfold leftArea2 lexLT at *
  by_contra hc
  push Not at hc
  rcases h with ⟨h, g⟩ | ⟨h, g⟩
  · rcases h with h | ⟨h, h'⟩
    · rcases g with g | ⟨g, g'⟩
      · have := mul_pos hc (sub_pos.2 g)
        have := mul_nonneg h3 (sub_pos.2 h).le
        have h6 := congrArg (fun t => t * (p.x - b.x)) h1
        simp only [zero_mul] at h6
        nlinarith
      · rw [g] at h1 h3
        nlinarith [mul_pos (sub_pos.2 h) (sub_pos.2 g')]
    · rw [h] at h1 hc
      rcases g with g | ⟨g, g'⟩
      · nlinarith [mul_pos (sub_pos.2 g) (sub_pos.2 h')]
      · rw [g] at h3
        have h4 : 0 < b.x - p.x := by
          by_contra hn
          nlinarith [mul_nonneg (sub_pos.2 h').le (neg_nonneg.2 (not_lt.1 hn))]
        nlinarith [mul_pos h4 (sub_pos.2 g')]
  · rcases h with h | ⟨h, h'⟩
    · rcases g with g | ⟨g, g'⟩
      · have := mul_pos hc (sub_pos.2 g)
        have := mul_nonneg h3 (sub_pos.2 h).le
        have h6 := congrArg (fun t => t * (p.x - b.x)) h1
        simp only [zero_mul] at h6
        nlinarith
      · rw [← g] at h1 h3
        nlinarith [mul_pos (sub_pos.2 h) (sub_pos.2 g')]
    · rw [← h] at h1 hc
      rcases g with g | ⟨g, g'⟩
      · nlinarith [mul_pos (sub_pos.2 g) (sub_pos.2 h')]
      · rw [← g] at h3
        have h4 : 0 < p.x - b.x := by
          by_contra hn
          nlinarith [mul_nonneg (sub_pos.2 h').le (neg_nonneg.2 (not_lt.1 hn))]
        nlinarith [mul_pos h4 (sub_pos.2 g')]

/-- A vertex in both halves would be pinched. -/
theorem pinch {a v b c : P ℝ} (hav : lexLT a v) (hvc : lexLT v c) (h1 : 0 < leftArea2 a v b)
    (h2 : 0 ≤ leftArea2 a v c) (h3 : 0 ≤ leftArea2 c v a) (h4 : 0 ≤ leftArea2 c v b) : False := by
  have h5 : leftArea2 a v c = 0 := by
    have : leftArea2 c v a = -leftArea2 a v c := by unfold leftArea2; ring
    linarith
  unfold leftArea2 lexLT at *
  rcases hav with h | ⟨h, h'⟩
  · rcases hvc with g | ⟨g, g'⟩
    · have := mul_pos h1 (sub_pos.2 g)
      have := mul_nonneg h4 (sub_pos.2 h).le
      have h6 := congrArg (fun t => t * (b.x - v.x)) h5
      simp only [zero_mul] at h6
      nlinarith
    · rw [← g] at h5
      nlinarith [mul_pos (sub_pos.2 h) (sub_pos.2 g')]
  · rw [h] at h1 h5
    rcases hvc with g | ⟨g, g'⟩
    · nlinarith [mul_pos (sub_pos.2 g) (sub_pos.2 h')]
    · rw [← g] at h4
      have h4' : b.x - v.x < 0 := by
        by_contra hn
        nlinarith [mul_nonneg (sub_pos.2 h').le (not_lt.1 hn)]
      nlinarith [mul_pos (neg_pos.2 h4') (sub_pos.2 g')]

theorem half_get_mem {lt : P ℝ → P ℝ → Prop} {ps L : List (P ℝ)} {m M : P ℝ} (h : Half lt ps m M L) {i : Nat} {a : P ℝ}
    (ha : L[i]? = some a) : a ∈ ps := h.mem a (List.mem_of_getElem? ha)

theorem half_get_lt {lt : P ℝ → P ℝ → Prop} {ps L : List (P ℝ)} {m M : P ℝ} (h : Half lt ps m M L) {i j : Nat}
    (hij : i < j) {a b : P ℝ} (ha : L[i]? = some a) (hb : L[j]? = some b) : lt a b := by
  obtain ⟨hi, rfl⟩ := List.getElem?_eq_some_iff.1 ha
  obtain ⟨hj, rfl⟩ := List.getElem?_eq_some_iff.1 hb
  exact List.pairwise_iff_getElem.1 h.sorted i j hi hj hij

/-- Every three consecutive vertices of the hull turn left. -/
theorem join_turn {ps L U : List (P ℝ)} {m M : P ℝ} (hL : Half lexLT ps m M L)
    (hU : Half (fun a b => lexLT b a) ps M m U) (nL : 2 ≤ L.length) (nU : 2 ≤ U.length)
    (hn : 3 ≤ (L ++ (U.drop 1).dropLast).length) {i : Nat} {a b c : P ℝ}
    (ha : (L ++ (U.drop 1).dropLast)[i]? = some a)
    (hb : (L ++ (U.drop 1).dropLast)[(i + 1) % (L ++ (U.drop 1).dropLast).length]? = some b)
    (hc : (L ++ (U.drop 1).dropLast)[(i + 2) % (L ++ (U.drop 1).dropLast).length]? = some c) :
    0 < leftArea2 a b c := by
  have e1 : L.getLast? = U.head? := by rw [hL.last, hU.first]
  have e2 : U.getLast? = L.head? := by rw [hL.first, hU.last]
  have hlen : (L ++ (U.drop 1).dropLast).length = L.length + U.length - 2 := by
    simp only [List.length_append, List.length_dropLast, List.length_drop]; omega
  have hi : i < L.length + U.length - 2 := by rw [← hlen]; exact (List.getElem?_eq_some_iff.1 ha).1
  have hc' : (L ++ (U.drop 1).dropLast)[((i + 1) % (L ++ (U.drop 1).dropLast).length + 1) %
      (L ++ (U.drop 1).dropLast).length]? = some c := by
    rw [← hc]; congr 1
    rw [Nat.mod_add_mod]
  have E1 := join_get nL nU e1 e2 ha hb
  have E2 := join_get nL nU e1 e2 hb hc'
  rw [hlen] at E2 hn
  -- a strict turn exists somewhere
  have strict : ∃ x y z, x ∈ ps ∧ y ∈ ps ∧ z ∈ ps ∧ 0 < leftArea2 x y z := by
    rcases Nat.lt_or_ge 2 L.length with h | h
    · exact ⟨L[0], L[1], L[2], hL.mem _ (List.getElem_mem _), hL.mem _ (List.getElem_mem _),
        hL.mem _ (List.getElem_mem _), hL.turn 0 _ _ _ (by simp) (by simp) (by simp)⟩
    · have h : 2 < U.length := by omega
      exact ⟨U[0], U[1], U[2], hU.mem _ (List.getElem_mem _), hU.mem _ (List.getElem_mem _),
        hU.mem _ (List.getElem_mem _), hU.turn 0 _ _ _ (by simp) (by simp) (by simp)⟩
  have jn : ∀ (hlex : (lexLT a b ∧ lexLT c b) ∨ (lexLT b a ∧ lexLT b c)) (hl : ∀ p ∈ ps, 0 ≤ leftArea2 a b p)
      (hr : ∀ p ∈ ps, 0 ≤ leftArea2 b c p) (hcm : c ∈ ps), 0 < leftArea2 a b c := by
    intro hlex hl hr hcm
    refine lt_of_le_of_ne (hl c hcm) fun e => ?_
    obtain ⟨x, y, z, hx, hy, hz, h⟩ := strict
    have k := fun p hp => junction hlex e.symm (hl p hp) (hr p hp)
    have hab : a ≠ b := by
      rcases hlex with h | h
      · exact h.1.ne
      · exact h.1.ne.symm
    rw [collinear_area hab (k x hx) (k y hy) (k z hz)] at h
    exact lt_irrefl _ h
  rcases E1 with ⟨h1, a1, b1⟩ | ⟨h1, a1, b1⟩ <;> rcases E2 with ⟨h2, b2, c2⟩ | ⟨h2, b2, c2⟩
  · rw [Nat.mod_eq_of_lt (by omega)] at c2
    exact hL.turn i a b c a1 b1 c2
  · exact jn (.inl ⟨half_get_lt hL (Nat.lt_succ_self i) a1 b1, half_get_lt hU (Nat.lt_succ_self _) b2 c2⟩)
      (hL.left _ _ _ a1 b1) (hU.left _ _ _ b2 c2) (half_get_mem hU c2)
  · exact jn (.inr ⟨half_get_lt hU (Nat.lt_succ_self _) a1 b1, half_get_lt hL (Nat.lt_succ_self _) b2 c2⟩)
      (hU.left _ _ _ a1 b1) (hL.left _ _ _ b2 c2) (half_get_mem hL c2)
  · have h3 : i + 1 < L.length + U.length - 2 := by
      by_contra hcon
      have : i + 1 = L.length + U.length - 2 := by omega
      rw [this, Nat.mod_self] at h2
      omega
    rw [Nat.mod_eq_of_lt h3] at c2
    exact hU.turn _ a b c a1 b1 (by rw [← c2]; congr 1; omega)

/-- A point of a line between two others, in lexicographic order, is on the segment. -/
theorem on_segment {a b p : P ℝ} (h1 : lexLE a p) (h2 : lexLE p b) (h : leftArea2 a b p = 0) (hab : lexLT a b) :
    ∃ t, 0 ≤ t ∧ t ≤ 1 ∧ p = segPt ⟨a, b⟩ t := by
  unfold leftArea2 lexLE lexLT at *
  rcases hab with g | ⟨g, g'⟩
  · have hb : 0 < b.x - a.x := sub_pos.2 g
    refine ⟨(p.x - a.x) / (b.x - a.x), div_nonneg ?_ hb.le, (div_le_one hb).2 ?_, ?_⟩
    · rcases h1 with h | h <;> linarith [h]
    · rcases h2 with h | h <;> linarith [h]
    · unfold segPt
      refine P.ext ?_ ?_
      · field_simp; ring
      · field_simp; linarith
  · have hb : 0 < b.y - a.y := sub_pos.2 g'
    have hx : p.x = a.x := by rcases h1 with h | h <;> rcases h2 with g | g <;> linarith [h, g]
    refine ⟨(p.y - a.y) / (b.y - a.y), div_nonneg ?_ hb.le, (div_le_one hb).2 ?_, ?_⟩
    · rcases h1 with h | h <;> linarith [h]
    · rcases h2 with h | h <;> linarith [h]
    · unfold segPt
      refine P.ext ?_ ?_
      · simp only [g, hx]; ring
      · field_simp; ring

theorem tupLt_key : (P.tupLt : P ℝ → P ℝ → Bool) = Cam.keyLt fun p => toLex (p.x, p.y) := by
  funext a b
  exact Cam.lexLt_iff _ _

theorem sorted_lex (ps : List (P ℝ)) : (Cam.pySort P.tupLt ps).Pairwise lexLE := by
  rw [tupLt_key]
  refine (Cam.pySort_sorted (fun p : P ℝ => toLex (p.x, p.y)) ps).imp fun {a b} h => ?_
  exact Prod.Lex.toLex_le_toLex.1 h

theorem sorted_perm (ps : List (P ℝ)) : (Cam.pySort P.tupLt ps).Perm ps := by
  rw [tupLt_key]
  exact Cam.pySort_perm _ ps

theorem hull_of_sorted {eps : ℝ} (heps : 0 < eps) {s : List (P ℝ)} (hs : Separated eps s) (hsort : s.Pairwise lexLE) :
    IsHull s (halfHull eps s ++ ((halfHull eps s.reverse).drop 1).dropLast) := by
  rcases List.eq_nil_or_concat s with rfl | ⟨d, M, hd⟩
  · exact ⟨by simp [halfHull], by simp [halfHull], by simp [halfHull], by simp [halfHull], by simp [halfHull],
      by simp [halfHull], fun _ => rfl⟩
  obtain ⟨m, hm⟩ : ∃ m, s.head? = some m := by
    cases s with
    | nil => simp at hd
    | cons a s => exact ⟨a, rfl⟩
  have hM : s.getLast? = some M := by rw [hd, List.concat_eq_append]; simp
  have hL := lower_half heps hs hsort hm hM
  have hU := upper_half heps hs hsort hm hM
  have bounds : ∀ p ∈ s, lexLE m p ∧ lexLE p M := by
    intro p hp
    constructor
    · cases s with
      | nil => simp at hm
      | cons a s =>
        obtain rfl : a = m := by simpa using hm
        rcases List.mem_cons.1 hp with rfl | hp
        · exact lexLE_refl _
        · exact (List.pairwise_cons.1 hsort).1 p hp
    · rw [hd, List.concat_eq_append] at hp hsort
      rcases List.mem_append.1 hp with hp | hp
      · exact (List.pairwise_append.1 hsort).2.2 p hp M (by simp)
      · rw [show p = M by simpa using hp]; exact lexLE_refl _
  generalize halfHull eps s = L at hL
  generalize halfHull eps s.reverse = U at hU
  have hmm : m ∈ s := List.mem_of_mem_head? hm
  have lone : ∀ {lt : P ℝ → P ℝ → Prop} {x y : P ℝ} {Q : List (P ℝ)}, Half lt s x y Q → (Q.length < 2 → Q = [x] ∧ x = y) := by
    intro lt x y Q h hlt
    match Q, h.first, h.last, hlt with
    | [], h1, _, _ => simp at h1
    | [q], h1, h2, _ =>
      have e1 : q = x := by simpa using h1
      have e2 : q = y := by simpa using h2
      exact ⟨by rw [e1], e1 ▸ e2⟩
  have len2 : ∀ {lt : P ℝ → P ℝ → Prop} {x y : P ℝ} {Q : List (P ℝ)}, Half lt s x y Q → 2 ≤ Q.length → lt x y := by
    intro lt x y Q h hge
    refine half_get_lt h (i := 0) (j := Q.length - 1) (by omega) ?_ ?_
    · rw [← List.head?_eq_getElem?]; exact h.first
    · rw [← List.getLast?_eq_getElem?]; exact h.last
  rcases Nat.lt_or_ge L.length 2 with hlen | nL
  · -- a single point
    obtain ⟨e, hmM⟩ := lone hL hlen
    subst e hmM
    have hU1 : U = [m] := by
      rcases Nat.lt_or_ge U.length 2 with h | h
      · exact (lone hU h).1
      · exact absurd rfl (len2 hU h).ne
    subst hU1
    have all : ∀ p ∈ s, p = m := by
      intro p hp
      rcases (bounds p hp).1.lt_or_eq with h | h
      · exact absurd (bounds p hp).2 h.not_le
      · exact h.symm
    refine ⟨fun q hq => ?_, by simp, ?_, ?_, ?_, ?_, ?_⟩
    · rw [show q = m by simpa using hq]; exact hmm
    · intro i a b ha hb p hp
      have ha : a = m := by simpa using List.mem_of_getElem? ha
      rw [ha, all p hp]
      unfold leftArea2; nlinarith
    · intro h; simp at h
    · intro a b h; simp at h
    · intro a h p hp
      rw [show a = m by simpa [eq_comm] using h]
      exact all p hp
    · intro h; simp at h
  have hlt := len2 hL nL
  have nU : 2 ≤ U.length := by
    by_contra h
    exact hlt.ne (lone hU (not_le.1 h)).2.symm
  have e1 : L.getLast? = U.head? := by rw [hL.last, hU.first]
  have e2 : U.getLast? = L.head? := by rw [hL.first, hU.last]
  have hn : (L ++ (U.drop 1).dropLast).length = L.length + U.length - 2 := by
    simp only [List.length_append, List.length_dropLast, List.length_drop]; omega
  refine ⟨?_, ?_, ?_, fun h i a b c ha hb hc => join_turn hL hU nL nU h ha hb hc, ?_, ?_, ?_⟩
  · intro q hq
    rcases List.mem_append.1 hq with hq | hq
    · exact hL.mem q hq
    · exact hU.mem q (List.mem_of_mem_drop (List.mem_of_mem_dropLast hq))
  · refine List.nodup_append.2 ⟨hL.sorted.imp fun h => h.ne, ?_, ?_⟩
    · have : U.Nodup := hU.sorted.imp fun h => h.ne.symm
      exact this.sublist ((List.dropLast_sublist _).trans (List.drop_sublist _ _))
    · rintro v hv w hw rfl
      obtain ⟨i, hi⟩ := List.mem_iff_getElem?.1 hv
      obtain ⟨k, hk⟩ := List.mem_iff_getElem?.1 hw
      have hkl := (List.getElem?_eq_some_iff.1 hk).1
      rw [List.length_dropLast, List.length_drop] at hkl
      rw [List.getElem?_dropLast, if_pos (by rw [List.length_drop]; omega), List.getElem?_drop] at hk
      have hil := (List.getElem?_eq_some_iff.1 hi).1
      -- the neighbours
      have hU0 : U[0]? = some M := by rw [← List.head?_eq_getElem?]; exact hU.first
      have hUl : U[U.length - 1]? = some m := by rw [← List.getLast?_eq_getElem?]; exact hU.last
      have hL0 : L[0]? = some m := by rw [← List.head?_eq_getElem?]; exact hL.first
      have hLl : L[L.length - 1]? = some M := by rw [← List.getLast?_eq_getElem?]; exact hL.last
      have hvM : lexLT v M := half_get_lt hU (i := 0) (j := 1 + k) (by omega) hU0 hk
      have hmv : lexLT m v := half_get_lt hU (i := 1 + k) (j := U.length - 1) (by omega) hk hUl
      have hi0 : i ≠ 0 := by
        rintro rfl
        rw [hL0] at hi
        exact hmv.ne (by simpa using hi)
      have hil' : i ≠ L.length - 1 := by
        rintro rfl
        rw [hLl] at hi
        exact hvM.ne (by simpa using hi.symm)
      obtain ⟨j, rfl⟩ : ∃ j, i = j + 1 := ⟨i - 1, by omega⟩
      have ha : L[j]? = some L[j] := List.getElem?_eq_getElem (by omega)
      have hb : L[j + 2]? = some L[j + 2] := List.getElem?_eq_getElem (by omega)
      have hc : U[k]? = some U[k] := List.getElem?_eq_getElem (by omega)
      have hk' : U[k + 1]? = some v := by rw [← hk]; congr 1; omega
      exact pinch (half_get_lt hL (Nat.lt_succ_self j) ha hi) (half_get_lt hU (Nat.lt_succ_self k) hc hk')
        (hL.turn j _ _ _ ha hi hb) (hL.left j _ _ ha hi _ (half_get_mem hU hc))
        (hU.left k _ _ hc hk' _ (half_get_mem hL ha)) (hU.left k _ _ hc hk' _ (half_get_mem hL hb))
  · intro i a b ha hb
    rcases join_get nL nU e1 e2 ha hb with ⟨_, h1, h2⟩ | ⟨_, h1, h2⟩
    · exact hL.left _ a b h1 h2
    · exact hU.left _ a b h1 h2
  · intro a b hv p hp
    have hl2 : L.length = 2 ∧ U.length = 2 := by
      rw [hv] at hn
      have : L.length + U.length - 2 = 2 := hn.symm
      omega
    have hLe : L = [a, b] := by
      have : (U.drop 1).dropLast = [] := List.eq_nil_of_length_eq_zero (by
        rw [List.length_dropLast, List.length_drop]; omega)
      rwa [this, List.append_nil] at hv
    subst hLe
    obtain rfl : a = m := by simpa using hL.first
    obtain rfl : b = M := by simpa using hL.last
    have h1 := hL.left 0 a b rfl rfl p hp
    have h2 : 0 ≤ leftArea2 b a p := by
      refine hU.left 0 b a ?_ ?_ p hp
      · rw [← List.head?_eq_getElem?]; exact hU.first
      · have := hU.last
        rw [List.getLast?_eq_getElem?, hl2.2] at this
        exact this
    refine on_segment (bounds p hp).1 (bounds p hp).2 ?_ hlt
    rw [area_swap] at h2
    linarith
  · intro a hv
    rw [hv] at hn
    have : L.length + U.length - 2 = 1 := hn.symm
    omega
  · intro hv
    rw [hv] at hn
    have : L.length + U.length - 2 = 0 := hn.symm
    omega

theorem IsHull.perm {ps qs v : List (P ℝ)} (h : ps.Perm qs) (hv : IsHull ps v) : IsHull qs v where
  mem q hq := h.subset (hv.mem q hq)
  nodup := hv.nodup
  left i a b ha hb p hp := hv.left i a b ha hb p (h.symm.subset hp)
  convex := hv.convex
  segment a b e p hp := hv.segment a b e p (h.symm.subset hp)
  single a e p hp := hv.single a e p (h.symm.subset hp)
  empty e := by rw [hv.empty e] at h; exact h.nil_eq.symm

/-- **C96.** `convex_hull` returns the convex hull of its points, counter-clockwise, whatever their number, order,
repetitions and collinearities, as long as different points are at least the comparison tolerance apart. -/
theorem C96_convex_hull_partial (eps : ℝ) (heps : 0 < eps) (ps : List (P ℝ))
    (hsep : ∀ p ∈ ps, ∀ q ∈ ps, p = q ∨ eps ^ 2 ≤ sqDist p q) : IsHull ps (convexHull eps ps) := by
  have hp := sorted_perm ps
  refine IsHull.perm hp (hull_of_sorted heps (fun p h q g => ?_) (sorted_lex ps))
  exact hsep p (hp.subset h) q (hp.subset g)

/-- A case with a repeated point, an inner point and a point on an edge meets the hypotheses. -/
example : ∀ p ∈ ([⟨0, 0⟩, ⟨2, 0⟩, ⟨1, 1⟩, ⟨2, 2⟩, ⟨0, 2⟩, ⟨1, 0⟩, ⟨2, 0⟩] : List (P ℝ)),
    ∀ q ∈ ([⟨0, 0⟩, ⟨2, 0⟩, ⟨1, 1⟩, ⟨2, 2⟩, ⟨0, 2⟩, ⟨1, 0⟩, ⟨2, 0⟩] : List (P ℝ)),
      p = q ∨ ((1 : ℝ) / 10 ^ 6) ^ 2 ≤ sqDist p q := by
  intro p hp q hq
  simp only [List.mem_cons, List.not_mem_nil, or_false] at hp hq
  rcases hp with rfl | rfl | rfl | rfl | rfl | rfl | rfl <;> rcases hq with rfl | rfl | rfl | rfl | rfl | rfl | rfl <;>
    first
    | exact .inl rfl
    | (right; unfold sqDist; norm_num)

/-- ... and its hull, computed by the model, is the square. -/
example : convexHull (1 / 10 ^ 6 : ℚ) [⟨0, 0⟩, ⟨2, 0⟩, ⟨1, 1⟩, ⟨2, 2⟩, ⟨0, 2⟩, ⟨1, 0⟩, ⟨2, 0⟩] =
    [⟨0, 0⟩, ⟨2, 0⟩, ⟨2, 2⟩, ⟨0, 2⟩] := by decide +kernel

/-- **C96** without the distance condition is false: of two points closer than the tolerance only one is kept, so the
other one is not in the hull. -/
theorem C96_refuted_close_points (eps : ℝ) (heps : 0 < eps) :
    ¬ IsHull [⟨0, 0⟩, ⟨eps / 2, 0⟩] (convexHull eps [⟨0, 0⟩, ⟨eps / 2, 0⟩]) := by
  have hn : ∀ a b : P ℝ, sqDist a b < eps ^ 2 → a.ne eps b = false := by
    intro a b h
    have : a.eq eps b = true := (eq_iff eps a b).2 h
    unfold P.eq at this
    unfold P.ne
    rw [this]; rfl
  have h1 : (⟨0, 0⟩ : P ℝ).ne eps ⟨eps / 2, 0⟩ = false := hn _ _ (by unfold sqDist; simp only; nlinarith)
  have h2 : (⟨eps / 2, 0⟩ : P ℝ).ne eps ⟨0, 0⟩ = false := hn _ _ (by unfold sqDist; simp only; nlinarith)
  have hs : Cam.pySort P.tupLt [(⟨0, 0⟩ : P ℝ), ⟨eps / 2, 0⟩] = [⟨0, 0⟩, ⟨eps / 2, 0⟩] := by
    have : P.tupLt (⟨eps / 2, 0⟩ : P ℝ) ⟨0, 0⟩ = false := by
      unfold P.tupLt Cam.lexLt
      simp only [real_lt, real_beq, Bool.or_eq_false_iff, Bool.and_eq_false_iff, decide_eq_false_iff_not]
      constructor
      · linarith
      · left; linarith
    show Cam.sortInsert _ _ [_] = _
    unfold Cam.sortInsert
    rw [this]; rfl
  have hh : convexHull eps [(⟨0, 0⟩ : P ℝ), ⟨eps / 2, 0⟩] = [⟨0, 0⟩] := by
    unfold convexHull
    rw [hs]
    have a1 : halfHull eps [(⟨0, 0⟩ : P ℝ), ⟨eps / 2, 0⟩] = [⟨0, 0⟩] := by
      show (if (⟨0, 0⟩ : P ℝ).ne eps ⟨eps / 2, 0⟩ = true then _ else _ : List (P ℝ)).reverse = _
      rw [h1]; rfl
    have a2 : halfHull eps [(⟨eps / 2, 0⟩ : P ℝ), ⟨0, 0⟩] = [⟨eps / 2, 0⟩] := by
      show (if (⟨eps / 2, 0⟩ : P ℝ).ne eps ⟨0, 0⟩ = true then _ else _ : List (P ℝ)).reverse = _
      rw [h2]; rfl
    show halfHull eps [(⟨0, 0⟩ : P ℝ), ⟨eps / 2, 0⟩] ++ ((halfHull eps [(⟨eps / 2, 0⟩ : P ℝ), ⟨0, 0⟩]).drop 1).dropLast = _
    rw [a1, a2]; rfl
  rw [hh]
  intro h
  have := h.single _ rfl ⟨eps / 2, 0⟩ (by simp)
  have := congrArg P.x this
  simp only at this
  linarith

/-! ## C97 -/

theorem minHull_valid {K : Type} [PyTrig K] (hulls : List (List (P K))) (hall : ∀ h ∈ hulls, h ≠ []) (hne : hulls ≠ []) :
    ∃ c, hullPt hulls (minHullPtPair hulls) = some c := by
  unfold minHullPtPair
  have gen : ∀ (l : List (List (P K) × Nat)) (hp : Nat × Nat), (∀ e ∈ l, hulls[e.2]? = some e.1) →
      (∃ c, hullPt hulls hp = some c) → ∃ c, hullPt hulls (l.foldl (minHullStep hulls) hp) = some c := by
    intro l
    induction l with
    | nil => intro hp _ h; exact h
    | cons e l ih =>
      intro hp hl h
      refine ih _ (fun e he => hl e (by simp [he])) ?_
      unfold minHullStep
      split
      · rename_i a b ha hb
        split
        · refine ⟨a, ?_⟩
          unfold hullPt
          rw [hl e (by simp)]
          exact ha
        · exact h
      · exact h
  refine gen _ _ (fun e he => List.mem_zipIdx_iff_getElem?.1 he) ?_
  obtain ⟨h, t, rfl⟩ := List.exists_cons_of_ne_nil hne
  obtain ⟨a, as, rfl⟩ := List.exists_cons_of_ne_nil (hall h (by simp))
  exact ⟨a, rfl⟩

/-- **C97** is false: `convex_hull_chan` raises `TypeError` for every list of two points or more. -/
theorem C97_refuted {K : Type} [PyTrig K] (eps : K) (p q : P K) (ps : List (P K)) :
    convexHullChan eps (p :: q :: ps) = .error .typeError := by
  have hch : ∀ (n : Nat) (l : List (P K)), l.length ≤ n → chunks 1 n l = l.map fun p => [p] := by
    intro n
    induction n with
    | zero => intro l hl; cases l with
      | nil => rfl
      | cons a l => simp at hl
    | succ n ih => intro l hl; cases l with
      | nil => rfl
      | cons a l =>
        show [a] :: chunks 1 n l = _
        rw [ih l (by simpa using hl)]; rfl
  have h1 : ∀ a : P K, convexHull eps [a] = [a] := fun a => rfl
  have hh : (chunks 1 (p :: q :: ps).length (p :: q :: ps)).map (convexHull eps) = (p :: q :: ps).map fun p => [p] := by
    rw [hch _ _ le_rfl, List.map_map]
    exact List.map_congr_left fun a _ => h1 a
  have hall : ∀ h ∈ (p :: q :: ps).map (fun p => [p]), h ≠ [] := by
    intro h hh
    obtain ⟨a, _, rfl⟩ := List.mem_map.1 hh
    simp
  show chanRounds eps (p :: q :: ps) (ps.length + 1 + 1) 1 = _
  unfold chanRounds
  dsimp only
  rw [hh]
  have hlen : 2 ≤ ((p :: q :: ps).map fun p => [p]).length := by simp
  generalize (p :: q :: ps).map (fun p => [p]) = hulls at hall hlen
  obtain ⟨c, hc⟩ := minHull_valid hulls hall (by intro h; rw [h] at hlen; simp at hlen)
  have : nextHullPtPair hulls (minHullPtPair hulls) = .error .typeError := by
    unfold nextHullPtPair
    rw [hc]
    dsimp only
    generalize minHullPtPair hulls = pr
    obtain ⟨k, hk, hkl⟩ : ∃ k, k ≠ pr.1 ∧ k < hulls.length := by
      rcases Nat.eq_zero_or_pos pr.1 with h | h
      · exact ⟨1, by omega, by omega⟩
      · exact ⟨0, by omega, by omega⟩
    have hmem : (hulls[k], k) ∈ hulls.zipIdx.filter fun e => decide (e.2 ≠ pr.1) :=
      List.mem_filter.2 ⟨List.mem_zipIdx_iff_getElem?.2 (by simp [hkl]), by simpa using hk⟩
    have hne : ∀ e ∈ hulls.zipIdx.filter (fun e => decide (e.2 ≠ pr.1)), e.1 ≠ [] := by
      intro e he
      have := List.mem_zipIdx_iff_getElem?.1 (List.mem_filter.1 he).1
      exact hall _ (List.mem_of_getElem? this)
    generalize hulls.zipIdx.filter (fun e => decide (e.2 ≠ pr.1)) = l at hmem hne
    match l, hmem, hne with
    | x :: xs, _, hne =>
      rw [List.foldlM_cons]
      obtain ⟨a, as, ha⟩ := List.exists_cons_of_ne_nil (hne x (by simp))
      unfold nextHullStep rtangent
      rw [ha]
      rfl
  rw [this]
  rfl

/-- Two points are enough. -/
example : convexHullChan (1 / 10 ^ 6 : ℚ) [⟨0, 0⟩, ⟨2, 0⟩] = .error .typeError := by decide +kernel

/-- **C97**, the part that holds: the hull of one point is that point. -/
theorem C97_single_partial {K : Type} [PyTrig K] (eps : K) (p : P K) : convexHullChan eps [p] = .ok [p] := by
  have h : (P.tupLt p p : Bool) = true ∨ P.tupLt p p = false := by cases P.tupLt p p <;> simp
  rcases h with h | h <;>
    simp [convexHullChan, chanRounds, chunks, convexHull, Cam.pySort, Cam.sortInsert, halfHull, keepLeft, popRight, minHullPtPair,
      minHullStep, argminPt, hullPt, nextHullPtPair, h] <;> rfl

end Verif.Geom
