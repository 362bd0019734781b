import Verif.Ext.Props12
import Verif.Ext.Props16

/-!
# C154: colours and layers of a quasicrystal drawing
-/

set_option linter.unusedSectionVars false

namespace Verif.Ext
open Verif PyFloat PyTrig Geom

/-- Specification: the place of a colour among the different colours in use, counted from the smallest. -/
noncomputable def rankOf (colors : List ℝ) (c : ℝ) : Nat := ((colors.dedup).filter fun d => decide (d < c)).length

/-- Specification: an entry of the colour table, which is repeated over and over. -/
def shade (lut : List Str) (i : Int) : Str := lut.getD (i % (lut.length : Int)).toNat []

theorem lutAt_shade (lut : List Str) (h : lut ≠ []) (i : Int) : lutAt lut i = .ok (shade lut i) ∧ getIx lut (i % (lut.length : Int)).toNat = .ok (shade lut i) := by
  have hl : 0 < lut.length := List.length_pos_iff.2 h
  have h1 : (i % (lut.length : Int)).toNat < lut.length := by
    have := Int.emod_nonneg i (b := (lut.length : Int)) (by omega)
    have := Int.emod_lt_of_pos i (b := (lut.length : Int)) (by omega)
    omega
  have h2 : getIx lut (i % (lut.length : Int)).toNat = .ok (shade lut i) := by
    unfold getIx shade
    rw [List.getElem?_eq_getElem h1]
    simp [List.getD, List.getElem?_eq_getElem h1]
  refine ⟨?_, h2⟩
  unfold lutAt
  rw [if_neg (by simpa using h)]
  exact h2

theorem shade_emod (lut : List Str) (i : Int) : shade lut (i % (lut.length : Int)) = shade lut i := by
  unfold shade
  rw [Int.emod_emod_of_dvd _ (dvd_refl _)]

theorem shade_congr (lut : List Str) (i j : Int) (h : i % (lut.length : Int) = j % (lut.length : Int)) : shade lut i = shade lut j := by
  unfold shade
  rw [h]

/-- The index of a number in a list without repetitions that is in order is the number of smaller members. -/
theorem indexOf_sorted (c : ℝ) : ∀ (l : List ℝ), l.Pairwise (· < ·) → c ∈ l → indexOf c l = .ok ((l.filter fun d => decide (d < c)).length)
  | [], _, h => by cases h
  | d :: l, hs, h => by
    rw [List.pairwise_cons] at hs
    unfold indexOf
    by_cases e : d = c
    · subst e
      have : (l.filter fun x => decide (x < d)) = [] := by
        rw [List.filter_eq_nil_iff]
        intro x hx
        simpa using (hs.1 x hx).le
      simp [this]
    · have hm : c ∈ l := by
        rcases List.mem_cons.1 h with h | h
        · exact absurd h.symm e
        · exact h
      have ih := indexOf_sorted c l hs.2 hm
      have hd : d < c := hs.1 c hm
      rw [ih]
      simp [e, hd, Except.map]

theorem sortedKeys_spec (d : List (ℝ × Nat)) (cs : List ℝ) (hk : (d.map Prod.fst).Nodup) (hm : ∀ c, c ∈ d.map Prod.fst ↔ c ∈ cs) :
    (sortedKeys d).Pairwise (· < ·) ∧ (sortedKeys d).Perm cs.dedup := by
  have e : sortedKeys d = Cam.pySort (Cam.keyLt (fun x : ℝ => x)) (d.map Prod.fst) := by
    unfold sortedKeys
    congr 1
  have hp : (sortedKeys d).Perm (d.map Prod.fst) := by rw [e]; exact Cam.pySort_perm _ _
  have hs : (sortedKeys d).Pairwise (· ≤ ·) := by rw [e]; exact Cam.pySort_sorted _ _
  have hn : (sortedKeys d).Nodup := hp.nodup_iff.2 hk
  refine ⟨?_, ?_⟩
  · have := hs.and hn
    exact this.imp fun ⟨h1, h2⟩ => lt_of_le_of_ne h1 h2
  · refine hp.trans ((List.perm_ext_iff_of_nodup hk (List.nodup_dedup cs)).2 fun c => ?_)
    rw [hm, List.mem_dedup]

/-- The index under which a colour is looked up. -/
theorem indexOf_keys (d : List (ℝ × Nat)) (cs : List ℝ) (hk : (d.map Prod.fst).Nodup) (hm : ∀ c, c ∈ d.map Prod.fst ↔ c ∈ cs) (c : ℝ) (hc : c ∈ cs) :
    indexOf c (sortedKeys d) = .ok (rankOf cs c) ∧ rankOf cs c < (sortedKeys d).length := by
  obtain ⟨hs, hp⟩ := sortedKeys_spec d cs hk hm
  have hmem : c ∈ sortedKeys d := hp.mem_iff.2 (List.mem_dedup.2 hc)
  have hl : ((sortedKeys d).filter fun x => decide (x < c)).length = rankOf cs c := (hp.filter _).length_eq
  refine ⟨by rw [indexOf_sorted c _ hs hmem, hl], ?_⟩
  rw [← hl]
  rcases lt_or_eq_of_le (List.length_filter_le (fun x => decide (x < c)) (sortedKeys d)) with h | h
  · exact h
  · have := List.length_filter_eq_length_iff.1 h c hmem
    simp at this

theorem fillFrom_zfill (lut : List Str) (hl : lut ≠ []) (off : Int) (colors fc : List ℝ) (g : ℝ → Nat) (hg : ∀ c ∈ colors, indexOf c fc = .ok (g c)) :
    ∀ (polys : List (List (P ℝ))) (i : Nat) (ci : Int), polys.length = (colors.drop i).length →
      fillFrom true lut off colors fc polys i ci = .ok (List.zipWith (fun vs c => (vs, shade lut (g c + off))) polys (colors.drop i))
  | [], i, ci, h => by simp [fillFrom]
  | vs :: polys, i, ci, h => by
    rw [List.length_drop, List.length_cons] at h
    have hi : i < colors.length := by omega
    have hd : colors.drop i = colors[i] :: colors.drop (i + 1) := List.drop_eq_getElem_cons hi
    have ih := fillFrom_zfill lut hl off colors fc g hg polys (i + 1) (((g colors[i] : Int) + off).emod lut.length) (by rw [List.length_drop]; omega)
    have hix : getIx colors i = .ok colors[i] := by unfold getIx; rw [List.getElem?_eq_getElem hi]
    have hle : lut.isEmpty = false := by simpa using hl
    have h2 := (lutAt_shade lut hl ((g colors[i] : Int) + off)).2
    rw [hd]
    unfold fillFrom
    simp only [if_true, hix, hg colors[i] (List.getElem_mem hi), hle, Bool.false_eq_true, if_false, bind, Except.bind, pure, Except.pure, ih]
    erw [h2]
    rfl

theorem fillFrom_cycle (lut : List Str) (hl : lut ≠ []) (off : Int) (colors fc : List ℝ) :
    ∀ (polys : List (List (P ℝ))) (i : Nat) (ci : Int),
      fillFrom false lut off colors fc polys i ci = .ok (polys.mapIdx fun j vs => (vs, shade lut (ci + (j + 1) * (1 + off))))
  | [], i, ci => by simp [fillFrom]
  | vs :: polys, i, ci => by
    have ih := fillFrom_cycle lut hl off colors fc polys (i + 1) ((ci + 1 + off).emod lut.length)
    have hle : lut.isEmpty = false := by simpa using hl
    have h2 := (lutAt_shade lut hl (ci + 1 + off)).2
    unfold fillFrom
    simp only [hle, Bool.false_eq_true, if_false, bind, Except.bind, pure, Except.pure, ih]
    erw [h2]
    rw [List.mapIdx_cons]
    simp only [Except.ok.injEq, List.cons.injEq, Prod.mk.injEq, true_and]
    refine ⟨by congr 1; push_cast; ring, ?_⟩
    apply congrArg (fun f => polys.mapIdx f)
    funext j vs
    refine Prod.ext rfl (shade_congr lut _ _ ?_)
    show ((ci + 1 + off) % (lut.length : Int) + _) % _ = _
    rw [Int.emod_add_emod]
    congr 1
    push_cast
    ring

/-- **C154 (tiles filled by kind).** Coloured by kind of tile, every tile that was kept is drawn once, in the order of plotting, in the colour whose place in the table is the rank of its kind among the kinds in the drawing plus the offset: tiles
of one kind get the same colour (missing: empty tables and sorted tiles, see `C154_colors_refuted`). -/
theorem C154_filled_by_kind_partial (place : P ℝ → P ℝ) (r : Region ℝ) (calls : List (Call ℝ)) (pl : Plot ℝ) (h : Collected place r calls pl) (lut : List Str) (hl : lut ≠ []) (off : Int) :
    drawFilled true lut off pl = .ok ((calls.filterMap (keptTile place r)).map fun t => (t.1, shade lut (rankOf ((calls.filterMap (keptTile place r)).map Prod.snd) t.2 + off))) := by
  have hm : ∀ c, c ∈ pl.colorCount.map Prod.fst ↔ c ∈ pl.polygonColors := by
    intro c
    constructor
    · intro hc
      obtain ⟨⟨c', n⟩, h1, rfl⟩ := List.mem_map.1 hc
      exact ((h.counts c' n).1 h1).2
    · intro hc
      exact List.mem_map.2 ⟨(c, pl.polygonColors.count c), (h.counts c _).2 ⟨rfl, hc⟩, rfl⟩
  unfold drawFilled
  rw [fillFrom_zfill lut hl off pl.polygonColors _ (rankOf pl.polygonColors) (fun c hc => (indexOf_keys _ _ h.keys hm c hc).1) pl.polygons 0 0 (by simp [h.polygons, h.colors])]
  rw [List.drop_zero, h.polygons, h.colors, List.zipWith_map, List.zipWith_self]

/-- **C154 (tiles filled in turn).** Otherwise the tiles get the colours of the table in turn, every step going on by one plus the offset. -/
theorem C154_filled_in_turn_partial (pl : Plot ℝ) (lut : List Str) (hl : lut ≠ []) (off : Int) :
    drawFilled false lut off pl = .ok (pl.polygons.mapIdx fun j vs => (vs, shade lut ((j + 1) * (1 + off)))) := by
  unfold drawFilled
  rw [fillFrom_cycle lut hl]
  simp

/-- **C154 (refuted): colours.**  With a table that has no colours ("gray", "green" and "blue") any tile raises `ZeroDivisionError`; and the colours do not go with the tiles when these are sorted: the tile at each place is filled by the kind
of the tile that was plotted at that place. -/
theorem C154_colors_refuted :
    (∀ (zfill : Bool) (off : Int) (place : P ℝ → P ℝ) (r : Region ℝ) (calls : List (Call ℝ)) (pl : Plot ℝ), Collected place r calls pl → pl.polygons ≠ [] → drawFilled zfill [] off pl = .error .zeroDivision) ∧
    (∀ (place : P ℝ → P ℝ) (r : Region ℝ) (calls : List (Call ℝ)) (pl : Plot ℝ) (sorted : List (List (P ℝ))) (lut : List Str) (off : Int), Collected place r calls pl → lut ≠ [] → sorted.Perm pl.polygons →
      drawFilled true lut off { pl with polygons := sorted } = .ok (List.zipWith (fun vs c => (vs, shade lut (rankOf pl.polygonColors c + off))) sorted pl.polygonColors)) := by
  have hm : ∀ (place : P ℝ → P ℝ) (r : Region ℝ) (calls : List (Call ℝ)) (pl : Plot ℝ), Collected place r calls pl → ∀ c, c ∈ pl.colorCount.map Prod.fst ↔ c ∈ pl.polygonColors := by
    intro place r calls pl h c
    constructor
    · intro hc
      obtain ⟨⟨c', n⟩, h1, rfl⟩ := List.mem_map.1 hc
      exact ((h.counts c' n).1 h1).2
    · intro hc
      exact List.mem_map.2 ⟨(c, pl.polygonColors.count c), (h.counts c _).2 ⟨rfl, hc⟩, rfl⟩
  constructor
  · intro zfill off place r calls pl h hne
    unfold drawFilled
    cases hp : pl.polygons with
    | nil => exact absurd hp hne
    | cons vs rest =>
      have hlen : pl.polygonColors.length = pl.polygons.length := by simp [h.polygons, h.colors]
      rw [hp] at hlen
      cases hc : pl.polygonColors with
      | nil => simp [hc] at hlen
      | cons c cs =>
        have hi := (indexOf_keys _ _ h.keys (hm place r calls pl h) c (by rw [hc]; exact List.mem_cons_self)).1
        unfold fillFrom
        cases zfill
        · simp [bind, Except.bind, pure, Except.pure]
        · simp [getIx, hi, bind, Except.bind, pure, Except.pure]
  · intro place r calls pl sorted lut off h hl hp
    unfold drawFilled
    dsimp only
    rw [fillFrom_zfill lut hl off pl.polygonColors _ (rankOf pl.polygonColors) (fun c hc => (indexOf_keys _ _ h.keys (hm place r calls pl h) c hc).1) sorted 0 0
      (by rw [List.drop_zero, hp.length_eq]; simp [h.polygons, h.colors])]
    rw [List.drop_zero]

/-- Non-vacuity: two tiles of kinds 1/2 and 1/4, with the tiles in the order of plotting and the other way round: both times the first place is drawn in the colour of the second kind. -/
example : drawFilled true ["r".toList, "g".toList, "b".toList] 0 (⟨[[⟨0, 0⟩], [⟨1, 0⟩]], [1/2, 1/4], [], [], [], [(1/2, 1), (1/4, 1)], [], 0, 0, 1, 1⟩ : Plot ℚ) = .ok [([⟨0, 0⟩], "g".toList), ([⟨1, 0⟩], "r".toList)] ∧
    drawFilled true ["r".toList, "g".toList, "b".toList] 0 (⟨[[⟨1, 0⟩], [⟨0, 0⟩]], [1/2, 1/4], [], [], [], [(1/2, 1), (1/4, 1)], [], 0, 0, 1, 1⟩ : Plot ℚ) = .ok [([⟨1, 0⟩], "g".toList), ([⟨0, 0⟩], "r".toList)] := by
  decide +kernel

/-! ## Boxes -/

theorem boxesFrom_zfill (lut : List Str) (hl : lut ≠ []) (off : Int) (colors fc : List ℝ) (n : Option Nat) (g : ℝ → Nat) (hg : ∀ c ∈ colors, indexOf c fc = .ok (g c)) (hn : ∀ m, n = some m → ∀ c ∈ colors, g c < m) :
    ∀ (polys : List (List (P ℝ))) (i ci : Nat), polys.length = (colors.drop i).length →
      boxesFrom true lut off colors fc n polys i ci = .ok (List.zipWith (fun vs c => ⟨vs, shade lut (g c + off), n.map fun _ => g c⟩) polys (colors.drop i))
  | [], i, ci, h => by simp [boxesFrom]
  | vs :: polys, i, ci, h => by
    rw [List.length_drop, List.length_cons] at h
    have hi : i < colors.length := by omega
    have hd : colors.drop i = colors[i] :: colors.drop (i + 1) := List.drop_eq_getElem_cons hi
    have ih := boxesFrom_zfill lut hl off colors fc n g hg hn polys (i + 1) (g colors[i]) (by rw [List.length_drop]; omega)
    have hix : getIx colors i = .ok colors[i] := by unfold getIx; rw [List.getElem?_eq_getElem hi]
    have h2 := (lutAt_shade lut hl ((g colors[i] : Int) + off)).1
    rw [hd]
    unfold boxesFrom
    simp only [if_true, hix, hg colors[i] (List.getElem_mem hi), bind, Except.bind, h2, ih]
    cases n with
    | none => rfl
    | some m =>
      simp only [hn m rfl colors[i] (List.getElem_mem hi), if_true]
      rfl

/-- **C154 (boxes by kind).** Coloured by kind, every box that was kept is drawn once, in its order, in the colour of the rank of its kind plus the offset; with a layer for each kind, it is put into the layer of its kind (missing: boxes coloured
in turn, see `C154_boxes_refuted`). -/
theorem C154_boxes_by_kind_partial (place : P ℝ → P ℝ) (r : Region ℝ) (calls : List (Call ℝ)) (pl : Plot ℝ) (h : Collected place r calls pl) (lut : List Str) (hl : lut ≠ []) (off : Int) (layers : Bool) :
    drawBoxes true layers lut off pl = .ok ((calls.filterMap (keptBox place r)).map fun t =>
      ⟨t.1, shade lut (rankOf ((calls.filterMap (keptBox place r)).map Prod.snd) t.2 + off), if layers then some (rankOf ((calls.filterMap (keptBox place r)).map Prod.snd) t.2) else none⟩) := by
  unfold drawBoxes
  dsimp only
  rw [boxesFrom_zfill lut hl off pl.segpolyColors _ _ (rankOf pl.segpolyColors) (fun c hc => (indexOf_keys _ _ h.segKeys h.segCounts c hc).1) ?_ pl.segpolys 0 0 (by simp [h.segpolys, h.segColors])]
  · rw [List.drop_zero, h.segpolys, h.segColors, List.zipWith_map, List.zipWith_self]
    cases layers <;> simp
  · intro m hm c hc
    cases layers
    · simp at hm
    · simp only [if_true, Option.some.injEq] at hm
      rw [← hm]
      exact (indexOf_keys _ _ h.segKeys h.segCounts c hc).2

theorem boxesFrom_turn_error (lut : List Str) (hl : lut ≠ []) (off : Int) (colors fc : List ℝ) (m : Nat) :
    ∀ (polys : List (List (P ℝ))) (i ci : Nat), ci ≤ m → m < ci + 1 + polys.length → polys ≠ [] → boxesFrom false lut off colors fc (some m) polys i ci = .error .indexError
  | [], _, _, _, _, h => absurd rfl h
  | vs :: polys, i, ci, h1, h2, _ => by
    have hc := (lutAt_shade lut hl ((ci + 1 : Nat) + off)).1
    unfold boxesFrom
    simp only [Bool.false_eq_true, if_false, bind, Except.bind, pure, Except.pure, hc]
    by_cases hlt : ci + 1 < m
    · simp only [hlt, if_true]
      have hne : polys ≠ [] := by
        rintro rfl
        simp at h2
        omega
      rw [boxesFrom_turn_error lut hl off colors fc m polys (i + 1) (ci + 1) hlt.le (by simp at h2; omega) hne]
    · simp only [hlt, if_false]

/-- **C154 (refuted): boxes coloured in turn.**  Unless coloured by kind, boxes cannot be put into layers: as soon as there is a box, an `IndexError` is raised. -/
theorem C154_boxes_refuted (place : P ℝ → P ℝ) (r : Region ℝ) (calls : List (Call ℝ)) (pl : Plot ℝ) (h : Collected place r calls pl) (hne : pl.segpolys ≠ []) (lut : List Str) (hl : lut ≠ []) (off : Int) :
    drawBoxes false true lut off pl = .error .indexError := by
  unfold drawBoxes
  dsimp only
  rw [if_pos rfl]
  apply boxesFrom_turn_error lut hl off _ _ _ _ _ _ (Nat.zero_le _) _ hne
  obtain ⟨-, hp⟩ := sortedKeys_spec _ _ h.segKeys h.segCounts
  have h1 : (sortedKeys pl.segCount).length ≤ pl.segpolyColors.length := by
    rw [hp.length_eq]
    exact (List.dedup_sublist _).length_le
  have h2 : pl.segpolyColors.length = pl.segpolys.length := by simp [h.segpolys, h.segColors]
  omega

/-! ## Edges and segments -/

/-- Specification: a segment made longer or shorter by a factor without moving its middle or turning it. -/
def ScaledBy (k : ℝ) (s t : Line ℝ) : Prop := t.p1 = segPt s ((1 - k) / 2) ∧ t.p2 = segPt s ((1 + k) / 2)

theorem scaleSeg_ok (k : ℝ) (s : Line ℝ) (h : 0 < segLen s) : ∃ t, scaleSeg k s = .ok t ∧ ScaledBy k s t := by
  unfold scaleSeg
  by_cases e : k = 1
  · subst e
    refine ⟨s, by simp, ?_, ?_⟩ <;> apply P.ext_real <;> simp [segPt]
  · have hne : segLen s ≠ 0 := ne_of_gt h
    refine ⟨⟨segPt s ((1 - k) / 2), segPt s ((1 + k) / 2)⟩, ?_, rfl, rfl⟩
    simp only [length_real, real_beq, real_one, e, decide_false, Bool.not_false, if_true]
    unfold Line.extend pdiv
    rw [length_real]
    simp only [real_beq, real_zero, hne, decide_false, Bool.false_eq_true, if_false, if_true, bind, Except.bind, pure, Except.pure, real_mul, real_sub]
    congr 2 <;> apply P.ext_real <;> simp [segPt, Line.midpoint, P.add, P.sub, P.mul] <;> field_simp <;> ring

theorem edgesFrom_ok (eps k : ℝ) (margins : Option (Box ℝ)) (lut : List Str) (hl : lut ≠ []) (layers : Bool) :
    ∀ (segs : List (Line ℝ)) (ci : Nat), ci < lut.length → (∀ s ∈ segs, 0 < segLen s) → (∀ b, margins = some b → ∀ s ∈ segs, ∀ t, ScaledBy k s t → b.clipLine eps t ≠ none) →
      ∃ out, edgesFrom eps k margins lut layers segs ci = .ok out ∧ out.length = segs.length ∧
        ∀ i s, segs[i]? = some s → ∃ t u, ScaledBy k s t ∧ (margins = none → u = t) ∧ (∀ b, margins = some b → b.clipLine eps t = some u) ∧
          out[i]? = some (u, shade lut ((ci + i : Nat) : Int), if layers then some ((ci + i + 1) % lut.length) else none)
  | [], ci, _, _, _ => ⟨[], rfl, rfl, fun i s h => by simp at h⟩
  | s :: segs, ci, hci, hs, hc => by
    have hpos : 0 < lut.length := List.length_pos_iff.2 hl
    obtain ⟨t, ht, hst⟩ := scaleSeg_ok k s (hs s List.mem_cons_self)
    obtain ⟨out, h1, h2, h3⟩ := edgesFrom_ok eps k margins lut hl layers segs ((ci + 1) % lut.length) (Nat.mod_lt _ hpos) (fun s' h' => hs s' (List.mem_cons_of_mem _ h'))
      (fun b hb s' h' => hc b hb s' (List.mem_cons_of_mem _ h'))
    have hcss : getIx lut ci = .ok (shade lut (ci : Int)) := by
      have := (lutAt_shade lut hl (ci : Int)).2
      rwa [Int.emod_eq_of_lt (by omega) (by omega), Int.toNat_natCast] at this
    have hmod : ∀ i : Nat, shade lut (((ci + 1) % lut.length + i : Nat) : Int) = shade lut ((ci + (i + 1) : Nat) : Int) := by
      intro i
      apply shade_congr
      push_cast
      rw [Int.emod_add_emod]
      congr 1
      ring
    have hu : ∃ u, (margins = none → u = t) ∧ (∀ b, margins = some b → b.clipLine eps t = some u) ∧ cutTo eps margins t = some u := by
      clear h1 h3
      cases hm : margins with
      | none => exact ⟨t, fun _ => rfl, fun b hb => (by cases hb), rfl⟩
      | some b =>
        cases hcl : b.clipLine eps t with
        | none => exact absurd hcl (hc b hm s List.mem_cons_self t hst)
        | some u => exact ⟨u, fun h => (by cases h), fun b' hb' => (by cases hb'; exact hcl), hcl⟩
    obtain ⟨u, hu1, hu2, hu3⟩ := hu
    refine ⟨(u, shade lut (ci : Int), if layers then some ((ci + 1) % lut.length) else none) :: out, ?_, by simp [h2], ?_⟩
    · unfold edgesFrom
      simp only [ht, bind, Except.bind, hcss, hu3, h1, pure, Except.pure]
    · intro i s' hi
      cases i with
      | zero =>
        simp only [List.getElem?_cons_zero, Option.some.injEq] at hi
        subst hi
        exact ⟨t, u, hst, hu1, hu2, by simp⟩
      | succ i =>
        rw [List.getElem?_cons_succ] at hi
        obtain ⟨t', u', g1, g2, g3, g4⟩ := h3 i s' hi
        refine ⟨t', u', g1, g2, g3, ?_⟩
        rw [List.getElem?_cons_succ, g4, hmod i]
        have : ((ci + 1) % lut.length + i + 1) % lut.length = (ci + (i + 1) + 1) % lut.length := by
          rw [show (ci + 1) % lut.length + i + 1 = (ci + 1) % lut.length + (i + 1) by omega, Nat.mod_add_mod]
          congr 1
          omega
        rw [this]

/-- **C154 (edges).** Every edge of the tiling is drawn once, in the order given, scaled about its middle and then, if asked for, cut to the margins; the colours of the table are used in turn (missing: edges outside the margins and the layers,
see `C154_edges_refuted`). -/
theorem C154_edges_partial (eps k : ℝ) (margins : Option (Box ℝ)) (lut : List Str) (hl : lut ≠ []) (layers : Bool) (segs : List (Line ℝ)) (hs : ∀ s ∈ segs, 0 < segLen s)
    (hc : ∀ b, margins = some b → ∀ s ∈ segs, ∀ t, ScaledBy k s t → b.clipLine eps t ≠ none) :
    ∃ out, drawEdges eps k margins lut layers segs = .ok out ∧ out.length = segs.length ∧
      ∀ (i : Nat) s, segs[i]? = some s → ∃ t u, ScaledBy k s t ∧ (margins = none → u = t) ∧ (∀ b, margins = some b → b.clipLine eps t = some u) ∧
        out[i]?.map (fun d => (d.1, d.2.1)) = some (u, shade lut (i : Int)) := by
  obtain ⟨out, h1, h2, h3⟩ := edgesFrom_ok eps k margins lut hl layers segs 0 (List.length_pos_iff.2 hl) hs hc
  refine ⟨out, h1, h2, fun i s hi => ?_⟩
  obtain ⟨t, u, g1, g2, g3, g4⟩ := h3 i s hi
  exact ⟨t, u, g1, g2, g3, by rw [g4]; simp⟩

/-- **C154 (refuted): the layers of the edges, and edges outside the margins.**  With a layer per colour, every edge goes into the layer of the colour after its own, so that with two or more colours none is in the right layer; and an edge that
lies outside the margins raises `AttributeError` instead of being left out. -/
theorem C154_edges_refuted (eps k : ℝ) (margins : Option (Box ℝ)) (lut : List Str) (hl : lut ≠ []) (segs : List (Line ℝ)) (hs : ∀ s ∈ segs, 0 < segLen s) :
    ((∀ b, margins = some b → ∀ s ∈ segs, ∀ t, ScaledBy k s t → b.clipLine eps t ≠ none) →
      ∃ out, drawEdges eps k margins lut true segs = .ok out ∧ ∀ (i : Nat) u css l, out[i]? = some (u, css, l) → css = shade lut (i : Int) ∧ l = some ((i + 1) % lut.length) ∧ (2 ≤ lut.length → l ≠ some (i % lut.length))) ∧
    ∀ (layers : Bool) b s t, margins = some b → s ∈ segs → ScaledBy k s t → b.clipLine eps t = none → drawEdges eps k margins lut layers segs = .error .attributeError := by
  constructor
  · intro hc
    obtain ⟨out, h1, h2, h3⟩ := edgesFrom_ok eps k margins lut hl true segs 0 (List.length_pos_iff.2 hl) hs hc
    refine ⟨out, h1, fun i u css l hi => ?_⟩
    have hlt : i < segs.length := by
      rw [← h2]
      exact (List.getElem?_eq_some_iff.1 hi).1
    obtain ⟨t, u', -, -, -, g4⟩ := h3 i segs[i] (List.getElem?_eq_getElem hlt)
    rw [g4] at hi
    simp only [Nat.zero_add, if_true, Option.some.injEq, Prod.mk.injEq] at hi
    refine ⟨hi.2.1.symm, hi.2.2.symm, fun h2 => ?_⟩
    rw [← hi.2.2]
    simp only [ne_eq, Option.some.injEq]
    intro e
    have := Nat.sub_mod_eq_zero_of_mod_eq e
    rw [show i + 1 - i = 1 by omega, Nat.mod_eq_of_lt (by omega)] at this
    omega
  · intro layers b s t hb hm hst hcl
    have key : ∀ (segs : List (Line ℝ)) (ci : Nat), ci < lut.length → (∀ s ∈ segs, 0 < segLen s) → s ∈ segs → edgesFrom eps k margins lut layers segs ci = .error .attributeError := by
      intro segs
      induction segs with
      | nil => intro _ _ _ h; cases h
      | cons s' segs ih =>
        intro ci hci hs hm
        obtain ⟨t', ht', hst'⟩ := scaleSeg_ok k s' (hs s' List.mem_cons_self)
        have hcss : getIx lut ci = .ok (shade lut (ci : Int)) := by
          have := (lutAt_shade lut hl (ci : Int)).2
          rwa [Int.emod_eq_of_lt (by omega) (by omega), Int.toNat_natCast] at this
        unfold edgesFrom
        simp only [ht', bind, Except.bind, hcss, hb, cutTo]
        cases hcl' : b.clipLine eps t' with
        | none => rfl
        | some u =>
          rcases List.mem_cons.1 hm with e | hm
          · subst e
            have : t = t' := Line.ext (hst.1.trans hst'.1.symm) (hst.2.trans hst'.2.symm)
            rw [this, hcl'] at hcl
            cases hcl
          · have := ih ((ci + 1) % lut.length) (Nat.mod_lt _ (by omega)) (fun s'' h'' => hs s'' (List.mem_cons_of_mem _ h'')) hm
            rw [hb] at this
            simp only [this]
    exact key segs 0 (List.length_pos_iff.2 hl) hs hm

/-- Non-vacuity: an edge inside the margins and one across their edge; and one outside. -/
example : (drawEdges (1/1000 : ℚ) 1 (some ⟨⟨0, 0⟩, ⟨10, 10⟩⟩) ["r".toList, "g".toList] true [⟨⟨1, 1⟩, ⟨2, 2⟩⟩, ⟨⟨5, 5⟩, ⟨15, 5⟩⟩]).map (fun out => out.map Prod.fst) = .ok [⟨⟨1, 1⟩, ⟨2, 2⟩⟩, ⟨⟨5, 5⟩, ⟨10, 5⟩⟩] ∧
    (drawEdges (1/1000 : ℚ) 1 (some ⟨⟨0, 0⟩, ⟨10, 10⟩⟩) ["r".toList, "g".toList] true [⟨⟨1, 1⟩, ⟨2, 2⟩⟩, ⟨⟨5, 5⟩, ⟨15, 5⟩⟩]).map (fun out => out.map Prod.snd) = .ok [("r".toList, some 1), ("g".toList, some 0)] ∧
    (drawEdges (1/1000 : ℚ) 1 (some ⟨⟨0, 0⟩, ⟨10, 10⟩⟩) ["r".toList, "g".toList] true [⟨⟨11, 1⟩, ⟨12, 2⟩⟩]).map List.length = .error .attributeError := by decide +kernel

/-- **C154 (segments).** Every segment is drawn once, in its order, scaled about its middle. -/
theorem C154_segments (k : ℝ) (segs : List (Line ℝ)) (hs : ∀ s ∈ segs, 0 < segLen s) : ∃ out, drawSegments k segs = .ok out ∧ List.Forall₂ (ScaledBy k) segs out := by
  unfold drawSegments
  induction segs with
  | nil => exact ⟨[], rfl, .nil⟩
  | cons s segs ih =>
    obtain ⟨t, ht, hst⟩ := scaleSeg_ok k s (hs s List.mem_cons_self)
    obtain ⟨out, h1, h2⟩ := ih fun s' h' => hs s' (List.mem_cons_of_mem _ h')
    refine ⟨t :: out, ?_, .cons hst h2⟩
    rw [List.mapM_cons, ht, h1]
    rfl

end Verif.Ext
