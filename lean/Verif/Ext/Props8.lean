import Verif.Ext.Props7

/-!
# C147 (continued): which tiles are drawn, and in which order
-/

set_option linter.unusedSectionVars false

namespace Verif.Ext
open Verif PyFloat PyTrig Geom

theorem mem_lineNumbers {N n : Nat} : n ∈ lineNumbers N ↔ 1 ≤ n ∧ n + 1 < N := by
  unfold lineNumbers
  rw [List.mem_range'_1]
  omega

theorem mem_dirPairs {S : Nat} {tr : Nat × Nat} : tr ∈ dirPairs S ↔ tr.1 < tr.2 ∧ tr.2 < S := by
  obtain ⟨t, r⟩ := tr
  unfold dirPairs
  simp only [List.mem_flatMap, List.mem_range, List.mem_map, List.mem_range'_1, Prod.mk.injEq]
  constructor
  · rintro ⟨a, ha, b, hb, rfl, rfl⟩; omega
  · rintro ⟨h1, h2⟩; exact ⟨t, by omega, r, by omega, rfl, rfl⟩

theorem nodup_dirPairs (S : Nat) : (dirPairs S).Pairwise (· ≠ ·) := by
  unfold dirPairs
  rw [List.pairwise_flatMap]
  constructor
  · intro t _
    rw [List.pairwise_map]
    refine List.Pairwise.imp ?_ (List.nodup_range' (s := t + 1) (n := S - (t + 1)))
    intro a b h; simpa using h
  · refine List.Pairwise.imp ?_ (List.nodup_range (n := S - 1))
    intro a b hab x hx y hy
    simp only [List.mem_map] at hx hy
    obtain ⟨_, _, rfl⟩ := hx
    obtain ⟨_, _, rfl⟩ := hy
    simp [hab]

/-- The square of the distance from the middle. -/
theorem ringDist_real (N n m : Nat) : (ringDist N n m : ℝ) = ((n : ℝ) - ((N : ℝ) - 1) / 2) ^ 2 + ((m : ℝ) - ((N : ℝ) - 1) / 2) ^ 2 := by
  unfold ringDist
  simp only [real_add, real_sub, real_mul, real_div, real_ofInt]
  push_cast
  ring

/-- One ring of the loop. -/
noncomputable def ringAt (i : Nat) : ℝ × ℝ := ((0.4 * (i : ℝ)) * (0.4 * (i : ℝ)), (0.4 * ((i : ℝ) + 1)) * (0.4 * ((i : ℝ) + 1)))

theorem in_ring (N n m i : Nat) : (((ringAt i).1 <=. ringDist N n m) && (ringDist N n m <. (ringAt i).2)) = true ↔ ringOf N (n, m) = i := by
  unfold ringOf ringAt
  simp only [real_le, real_lt, ringDist_real, Bool.and_eq_true, decide_eq_true_eq]
  generalize hD : ((n : ℝ) - ((N : ℝ) - 1) / 2) ^ 2 + ((m : ℝ) - ((N : ℝ) - 1) / 2) ^ 2 = D
  have hD0 : 0 ≤ D := by rw [← hD]; positivity
  have hi : (0 : ℝ) ≤ i := Nat.cast_nonneg i
  rw [Int.floor_eq_iff]
  have e1 : (0.4 * (i : ℝ)) * (0.4 * (i : ℝ)) ≤ D ↔ ((i : Int) : ℝ) ≤ Real.sqrt D / 0.4 := by
    rw [le_div_iff₀ (by norm_num), Real.le_sqrt (by push_cast; positivity)]
    all_goals (push_cast; ring_nf)
    exact hD0
  have e2 : D < (0.4 * ((i : ℝ) + 1)) * (0.4 * ((i : ℝ) + 1)) ↔ Real.sqrt D / 0.4 < ((i : Int) : ℝ) + 1 := by
    rw [div_lt_iff₀ (by norm_num), Real.sqrt_lt' (by push_cast; positivity)]
    push_cast
    ring_nf
  rw [e1, e2]

theorem mem_ringPairs {N i : Nat} {nm : Nat × Nat} : nm ∈ ringPairs N (ringAt i) ↔
    (1 ≤ nm.1 ∧ nm.1 + 1 < N) ∧ (1 ≤ nm.2 ∧ nm.2 + 1 < N) ∧ ringOf N nm = i := by
  obtain ⟨n, m⟩ := nm
  unfold ringPairs
  simp only [List.mem_flatMap, List.mem_map, List.mem_filter, Prod.mk.injEq]
  constructor
  · rintro ⟨a, ha, b, ⟨hb, hr⟩, rfl, rfl⟩
    exact ⟨mem_lineNumbers.mp ha, mem_lineNumbers.mp hb, (in_ring _ _ _ _).mp hr⟩
  · rintro ⟨h1, h2, h3⟩
    exact ⟨n, mem_lineNumbers.mpr h1, m, ⟨mem_lineNumbers.mpr h2, (in_ring _ _ _ _).mpr h3⟩, rfl, rfl⟩

theorem nodup_ringPairs (N : Nat) (ring : ℝ × ℝ) : (ringPairs N ring).Pairwise (· ≠ ·) := by
  unfold ringPairs
  rw [List.pairwise_flatMap]
  constructor
  · intro t _
    rw [List.pairwise_map]
    have := (List.nodup_range' (s := 1) (n := N - 2)).filter
      (fun m => (ring.1 <=. ringDist N t m) && (ringDist N t m <. ring.2))
    refine List.Pairwise.imp ?_ this
    intro a b h; simpa using h
  · refine List.Pairwise.imp ?_ (List.nodup_range' (s := 1) (n := N - 2))
    intro a b hab x hx y hy
    simp only [List.mem_map] at hx hy
    obtain ⟨_, _, rfl⟩ := hx
    obtain ⟨_, _, rfl⟩ := hy
    simp [hab]

theorem ringOf_lt (N len : Nat) (hlen : ((((N : Int) - 1 : Int)) : ℝ) < 0.4 * (len : ℝ)) (nm : Nat × Nat)
    (h1 : 1 ≤ nm.1 ∧ nm.1 + 1 < N) (h2 : 1 ≤ nm.2 ∧ nm.2 + 1 < N) : ∃ i, i < len ∧ ringOf N nm = (i : Nat) := by
  obtain ⟨n, m⟩ := nm
  dsimp only at h1 h2
  have hn1 : (1 : ℝ) ≤ n := by exact_mod_cast h1.1
  have hn2 : (n : ℝ) + 1 < N := by exact_mod_cast h1.2
  have hm1 : (1 : ℝ) ≤ m := by exact_mod_cast h2.1
  have hm2 : (m : ℝ) + 1 < N := by exact_mod_cast h2.2
  push_cast at hlen
  have h0 : (0 : Int) ≤ ringOf N (n, m) := Int.floor_nonneg.mpr (by positivity)
  refine ⟨(ringOf N (n, m)).toNat, ?_, by omega⟩
  have : ringOf N (n, m) < (len : Int) := by
    unfold ringOf
    rw [Int.floor_lt, div_lt_iff₀ (by norm_num), Real.sqrt_lt' (by push_cast; nlinarith)]
    push_cast
    have b1 : |(n : ℝ) - ((N : ℝ) - 1) / 2| ≤ ((N : ℝ) - 1) / 2 := by rw [abs_le]; constructor <;> linarith
    have b2 : |(m : ℝ) - ((N : ℝ) - 1) / 2| ≤ ((N : ℝ) - 1) / 2 := by rw [abs_le]; constructor <;> linarith
    have c1 := sq_le_sq' (by linarith [(abs_le.mp b1).1]) (abs_le.mp b1).2
    have c2 := sq_le_sq' (by linarith [(abs_le.mp b2).1]) (abs_le.mp b2).2
    have : ((N : ℝ) - 1) ^ 2 < ((len : ℝ) * 0.4) ^ 2 := by
      apply sq_lt_sq' <;> nlinarith
    nlinarith [sq_nonneg ((N : ℝ) - 1)]
  omega

/-- The crossings are looked at once each, in the order of the rings. -/
theorem places_spec (q : Quasi ℝ) (fuel : Nat) (rings : List (ℝ × ℝ)) (h : ringsFrom ((q.numlines : Int) - 1) fuel 0 = some rings) :
    (quasiPlaces q rings).Nodup ∧ (∀ c, c ∈ quasiPlaces q rings ↔ OnGrid q c) ∧
      (quasiPlaces q rings).Pairwise fun a b => ringOf q.numlines a.1 ≤ ringOf q.numlines b.1 := by
  have h0 : (0 : ℝ) = 0.4 * ((0 : Nat) : ℝ) := by simp
  rw [h0] at h
  obtain ⟨hlen, hr⟩ := ringsFrom_spec _ _ _ _ h
  generalize rings.length = len at hlen hr
  rw [Nat.zero_add] at hlen
  have hr : rings = (List.range' 0 len).map ringAt := hr
  subst hr
  have mem : ∀ c, c ∈ quasiPlaces q ((List.range' 0 len).map ringAt) ↔ OnGrid q c := by
    intro c
    obtain ⟨nm, tr⟩ := c
    unfold quasiPlaces OnGrid
    simp only [List.mem_flatMap, List.mem_map, List.mem_range'_1, Prod.mk.injEq]
    constructor
    · rintro ⟨_, ⟨i, _, rfl⟩, nm', hnm, tr', htr, rfl, rfl⟩
      have := mem_ringPairs.mp hnm
      exact ⟨this.1, this.2.1, mem_dirPairs.mp htr⟩
    · rintro ⟨h1, h2, h3⟩
      obtain ⟨i, hi, hi'⟩ := ringOf_lt q.numlines len hlen nm h1 h2
      exact ⟨_, ⟨i, by omega, rfl⟩, nm, mem_ringPairs.mpr ⟨h1, h2, hi'⟩, tr, mem_dirPairs.mpr h3, rfl, rfl⟩
  refine ⟨?_, mem, ?_⟩
  · unfold List.Nodup quasiPlaces
    rw [List.pairwise_flatMap]
    constructor
    · intro ring _
      rw [List.pairwise_flatMap]
      constructor
      · intro nm _
        rw [List.pairwise_map]
        refine List.Pairwise.imp ?_ (nodup_dirPairs q.symmetry)
        intro a b h; simpa using h
      · refine List.Pairwise.imp ?_ (nodup_ringPairs q.numlines ring)
        intro a b hab x hx y hy
        simp only [List.mem_map] at hx hy
        obtain ⟨_, _, rfl⟩ := hx
        obtain ⟨_, _, rfl⟩ := hy
        simp [hab]
    · rw [List.pairwise_map]
      refine List.Pairwise.imp ?_ (List.nodup_range' (s := 0) (n := len))
      intro i j hij x hx y hy
      simp only [List.mem_flatMap, List.mem_map] at hx hy
      obtain ⟨nm, hnm, _, _, rfl⟩ := hx
      obtain ⟨nm', hnm', _, _, rfl⟩ := hy
      intro he
      simp only [Prod.mk.injEq] at he
      have e1 := (mem_ringPairs.mp hnm).2.2
      have e2 := (mem_ringPairs.mp hnm').2.2
      rw [he.1, e2] at e1
      exact hij (by exact_mod_cast e1.symm)
  · unfold quasiPlaces
    rw [List.pairwise_flatMap]
    constructor
    · intro ring hring
      obtain ⟨i, _, rfl⟩ := List.mem_map.mp hring
      rw [List.pairwise_iff_forall_sublist]
      intro a b hab
      have ha : a ∈ _ := hab.subset (List.mem_cons_self ..)
      have hb : b ∈ _ := hab.subset (List.mem_cons_of_mem _ (List.mem_cons_self ..))
      simp only [List.mem_flatMap, List.mem_map] at ha hb
      obtain ⟨nm, hnm, _, _, rfl⟩ := ha
      obtain ⟨nm', hnm', _, _, rfl⟩ := hb
      rw [(mem_ringPairs.mp hnm).2.2, (mem_ringPairs.mp hnm').2.2]
    · rw [List.pairwise_map]
      refine List.Pairwise.imp ?_ (List.pairwise_lt_range' (s := 0) (n := len))
      intro i j hij x hx y hy
      simp only [List.mem_flatMap, List.mem_map] at hx hy
      obtain ⟨nm, hnm, _, _, rfl⟩ := hx
      obtain ⟨nm', hnm', _, _, rfl⟩ := hy
      rw [(mem_ringPairs.mp hnm).2.2, (mem_ringPairs.mp hnm').2.2]
      exact_mod_cast hij.le

/-- What a finished run is. -/
theorem quasi_spec {q : Quasi ℝ} {fuel : Nat} {calls : List (Call ℝ)} (h : quasi q fuel = some (.ok calls)) :
    ∃ l, l.Nodup ∧ (∀ c, c ∈ l ↔ OnGrid q c) ∧ l.Pairwise (fun a b => ringOf q.numlines a.1 ≤ ringOf q.numlines b.1) ∧
      Tiling q [] l calls ∧ ∀ c ∈ l, Real.sin (gridAngle q c.2.2 - gridAngle q c.2.1) ≠ 0 := by
  unfold quasi at h
  split at h
  · exact absurd h (by simp)
  rename_i vs hvs
  split at h
  · exact absurd h (by simp)
  rename_i rings hr
  simp only [Option.some.injEq] at h
  have hr : ringsFrom ((q.numlines : Int) - 1) fuel (0 : ℝ) = some rings := by rw [← hr, real_zero]
  obtain ⟨a, b, c⟩ := places_spec q fuel rings hr
  have hf := fold_spec (initVectors_ok hvs) (quasiPlaces q rings) (fun c hc => (b c).mp hc) ⟨List.replicate q.symmetry 0, []⟩ (by simp)
  cases hfold : (quasiPlaces q rings).foldlM (quasiStep q vs) ⟨List.replicate q.symmetry 0, []⟩ with
  | error e => rw [hfold] at h; exact absurd h (by simp [Except.map])
  | ok st' =>
    rw [hfold] at h
    simp only [Except.map, Except.ok.injEq] at h
    subst h
    obtain ⟨t1, t2⟩ := hf.1 st' hfold
    exact ⟨_, a, b, c, t1, t2⟩

open Classical in
/-- The tiles among what is plotted. -/
theorem tiling_polygons {q : Quasi ℝ} {a b : List (Call ℝ)} {l : List ((Nat × Nat) × (Nat × Nat))} (h : Tiling q a l b) :
    ∃ new, polygonsOf b = polygonsOf a ++ new ∧ List.Forall₂ (IsTile q) (l.filter (fun c => decide (Drawn q c))) new := by
  induction h with
  | nil => exact ⟨[], by simp, by simp⟩
  | skip hnd _ ih =>
    obtain ⟨new, h1, h2⟩ := ih
    exact ⟨new, h1, by rwa [List.filter_cons_of_neg (by simpa using hnd)]⟩
  | @draw a b c cs g hg _ ih =>
    obtain ⟨new, h1, h2⟩ := ih
    obtain ⟨p, v1, v2, segs, hin, i1, i2, hz, hge, hacc, hrej⟩ := hg
    have hsegs : polygonsOf segs = [] := by
      cases hb : q.accepts (a ++ [.polygon (rhombus (stepsTo q (tileSteps q c.1.1 c.1.2 c.2.1 c.2.2 p)) (gridAngle q c.2.1) (gridAngle q c.2.2))
        (q.rnd |Real.cos (gridAngle q c.2.2 - gridAngle q c.2.1)|)]) with
      | false => rw [hrej hb]; rfl
      | true =>
        have := hacc hb
        generalize stepsTo q (tileSteps q c.1.1 c.1.2 c.2.1 c.2.2 p) = pt at this
        unfold tileSegs at this
        dsimp only at this
        by_cases h1 : q.segSkinny > 0 ∨ q.segFat > 0
        · rw [if_pos h1] at this
          generalize (if q.skinnyFat <. PyFloat.abs ((v1.x *. v2.x) +. (v1.y *. v2.y)) then q.segSkinny else q.segFat) = s at this
          split at this
          · unfold midSegs at this
            simp only [bind, Except.bind, pure, Except.pure] at this
            split at this
            · simp only [Except.ok.injEq] at this; subst this; rfl
            split at this
            · simp only [Except.ok.injEq] at this; subst this; rfl
            split at this
            · split at this <;> (simp only [Except.ok.injEq] at this; subst this; rfl)
            split at this
            · split at this
              · exact absurd this (by simp)
              · simp only [Except.ok.injEq] at this; subst this; rfl
            · simp only [Except.ok.injEq] at this; subst this; rfl
          · simp only [Except.ok.injEq] at this
            subst this
            unfold vertSegs
            dsimp only
            split
            · rfl
            split
            · rfl
            split
            · split <;> rfl
            · rfl
        · rw [if_neg h1] at this
          simp only [Except.ok.injEq] at this; subst this; rfl
    refine ⟨rhombus (stepsTo q (tileSteps q c.1.1 c.1.2 c.2.1 c.2.2 p)) (gridAngle q c.2.1) (gridAngle q c.2.2) :: new, ?_, ?_⟩
    · rw [h1, polygonsOf_append, hge]
      simp [polygonsOf, hsegs]
    · have hd : Drawn q c := ⟨p, hin⟩
      rw [List.filter_cons_of_pos (by simpa using hd)]
      exact .cons ⟨p, hin, rfl⟩ h2

/-- C147 (which tiles): a finished run draws one tile for each crossing of two lines of different directions of the grid
(the outermost lines excepted) that lies well inside the lines of all the other directions, and no other tile; the
crossings are taken in rings outwards from the middle. -/
theorem C147_tiles {q : Quasi ℝ} {fuel : Nat} {calls : List (Call ℝ)} (h : quasi q fuel = some (.ok calls)) :
    ∃ l : List ((Nat × Nat) × (Nat × Nat)), l.Nodup ∧ (∀ c, c ∈ l ↔ OnGrid q c ∧ Drawn q c) ∧
      l.Pairwise (fun a b => ringOf q.numlines a.1 ≤ ringOf q.numlines b.1) ∧
      List.Forall₂ (IsTile q) l (polygonsOf calls) := by
  classical
  obtain ⟨l, h1, h2, h3, h4, _⟩ := quasi_spec h
  obtain ⟨new, e, hf⟩ := tiling_polygons h4
  refine ⟨l.filter (fun c => decide (Drawn q c)), h1.filter _, ?_, h3.filter _, ?_⟩
  · intro c
    rw [List.mem_filter, h2]
    simp
  · rw [e]
    simpa [polygonsOf] using hf

/-- C147 (rhombi): every polygon drawn is a rhombus with sides of length 1 that is not flat. -/
theorem C147_rhombi {q : Quasi ℝ} {fuel : Nat} {calls : List (Call ℝ)} (h : quasi q fuel = some (.ok calls)) :
    ∀ vs ∈ polygonsOf calls, ∃ a b c d : P ℝ, vs = [a, b, c, d] ∧
      (b.x - a.x) ^ 2 + (b.y - a.y) ^ 2 = 1 ∧ (d.x - a.x) ^ 2 + (d.y - a.y) ^ 2 = 1 ∧
      c.x - d.x = b.x - a.x ∧ c.y - d.y = b.y - a.y ∧ (b.x - a.x) * (d.y - a.y) - (b.y - a.y) * (d.x - a.x) ≠ 0 := by
  classical
  obtain ⟨l, h1, h2, h3, h4, h5⟩ := quasi_spec h
  obtain ⟨new, e, hf⟩ := tiling_polygons h4
  simp only [polygonsOf, List.nil_append] at e
  intro vs hvs
  rw [e] at hvs
  obtain ⟨i, hi, hvi⟩ := List.mem_iff_getElem.mp hvs
  have hlen := hf.length_eq
  have := List.Forall₂.get hf (by rw [hlen]; exact hi) hi
  obtain ⟨p, _, hv⟩ := this
  have hm := List.get_mem (l.filter fun c => decide (Drawn q c)) ⟨i, by rw [hlen]; exact hi⟩
  generalize (l.filter fun c => decide (Drawn q c)).get ⟨i, _⟩ = c at hv hm
  have hs := h5 c (List.mem_of_mem_filter hm)
  simp only [List.get_eq_getElem] at hv
  rw [hvi] at hv
  refine ⟨_, _, _, _, hv, ?_, ?_, ?_, ?_, ?_⟩
  · linear_combination Real.cos_sq_add_sin_sq (gridAngle q c.2.1)
  · linear_combination Real.cos_sq_add_sin_sq (gridAngle q c.2.2)
  · ring
  · ring
  · rw [Real.sin_sub] at hs
    intro hc
    apply hs
    linear_combination hc

end Verif.Ext
