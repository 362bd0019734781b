import Verif.Ext.Sine
import Verif.Svg.Props16
import Verif.Svg.Props19

/-!
# C182: the sine wave extension
-/

set_option linter.unusedSectionVars false
set_option linter.unusedVariables false

namespace Verif.Ext
open Verif PyFloat PyTrig Geom Svg

/-- Specification: where the curve number `i` of the wave ends: a quarter of a wavelength to the right of the one before; up at the crest, on the axis,
down in the trough, on the axis. -/
def quarterEnd (amp wl : ℚ) (o : P ℚ) (i : Nat) : P ℚ :=
  ⟨o.x + (i + 1) * wl / 4, if i % 4 = 0 then o.y + amp else if i % 4 = 2 then o.y - amp else o.y⟩

/-- The point a command leads to. -/
def cmdEnd (c : Char × List ℚ) : Option (Char × P ℚ) :=
  match c with
  | ('C', [_, _, _, _, x, y]) => some ('C', ⟨x, y⟩)
  | _ => none

theorem piQ_ne : (PyFloat.pi : ℚ) ≠ 0 := by decide +kernel

/-- The ends of the curves of one cycle. -/
theorem cycle_ends (amp wl : ℚ) (o : P ℚ) (i : Nat) :
    ((sineQuarters amp wl).map fun q => (q.transform (Mat.translate (wl *. ofInt i +. o.x) o.y)).p2) =
      [quarterEnd amp wl o (4 * i), quarterEnd amp wl o (4 * i + 1), quarterEnd amp wl o (4 * i + 2), quarterEnd amp wl o (4 * i + 3)] := by
  have hpi := piQ_ne
  have e1 : (4 * i) % 4 = 0 := by omega
  have e2 : (4 * i + 1) % 4 = 1 := by omega
  have e3 : (4 * i + 2) % 4 = 2 := by omega
  have e4 : (4 * i + 3) % 4 = 3 := by omega
  unfold sineQuarters
  simp only [List.map_cons, List.map_nil, Bez.transform, P.transform, Mat.apply, Mat.translate, Mat.scale, quarterEnd, e1, e2, e3, e4]
  py
  have hx : wl / 4 / (PyFloat.pi / 2) * (PyFloat.pi / 2 : ℚ) = wl / 4 := by field_simp
  simp only [hx]
  push_cast
  simp
  refine ⟨⟨?_, ?_⟩, ?_, ⟨?_, ?_⟩, ?_⟩ <;> ring

/-- The ends of the curves of the wave. -/
theorem wave_ends (amp wl : ℚ) (o : P ℚ) (n : Nat) : (sineWave amp wl n o).map (·.p2) = (List.range (4 * n)).map (quarterEnd amp wl o) := by
  induction n with
  | zero => rfl
  | succ n ih =>
    have h : sineWave amp wl (n + 1) o = sineWave amp wl n o ++ (sineQuarters amp wl).map fun q => q.transform (Mat.translate (wl *. ofInt n +. o.x) o.y) := by
      unfold sineWave
      rw [List.range_succ, List.flatMap_append]
      simp
    rw [h, List.map_append, ih, List.map_map]
    have := cycle_ends amp wl o n
    rw [show ((fun q : Bez ℚ => q.p2) ∘ fun q : Bez ℚ => q.transform (Mat.translate (wl *. ofInt n +. o.x) o.y)) =
      fun q => (q.transform (Mat.translate (wl *. ofInt n +. o.x) o.y)).p2 from rfl, this]
    rw [show 4 * (n + 1) = 4 * n + 1 + 1 + 1 + 1 by ring, List.range_succ, List.range_succ, List.range_succ, List.range_succ]
    simp

/-- The wave starts at the origin. -/
theorem wave_starts (amp wl : ℚ) (o : P ℚ) (n : Nat) : ((sineWave amp wl (n + 1) o).head?.map (·.p1)) = some o := by
  have h : ∃ q r, sineWave amp wl (n + 1) o = q :: r ∧ q.p1 = o := by
    refine ⟨((sineQuarters amp wl).head?.getD ⟨⟨0, 0⟩, ⟨0, 0⟩, ⟨0, 0⟩, ⟨0, 0⟩⟩).transform (Mat.translate (wl *. ofInt (0 : ℕ) +. o.x) o.y), ?_, ?_, ?_⟩
    · exact ((sineQuarters amp wl).tail.map fun q => q.transform (Mat.translate (wl *. ofInt (0 : ℕ) +. o.x) o.y)) ++
        (List.range' 1 n).flatMap fun i => (sineQuarters amp wl).map fun q => q.transform (Mat.translate (wl *. ofInt i +. o.x) o.y)
    · unfold sineWave
      rw [List.range_eq_range', List.range'_succ, List.flatMap_cons]
      rfl
    · unfold sineQuarters
      simp only [List.head?_cons, Option.getD_some, Bez.transform, P.transform, Mat.apply, Mat.translate, Mat.scale]
      py
      simp
  obtain ⟨q, r, h1, h2⟩ := h
  rw [h1, List.head?_cons, Option.map_some, h2]

/-- **C182**, no cycles: the layer is made, and nothing is drawn. -/
theorem C182_nothing (unit : Str → Except PyErr ℚ) (str fmtG : ℚ → Str) (digits : Nat) (height : ℚ) (doc : XNode) (amp wl : ℚ) (cycles : Int) (hc : cycles ≤ 0)
    (o : P ℚ) (r : SineDrawing) (h : sineRun unit str fmtG digits height doc amp wl cycles o = some (.ok r)) : r.drawn = [] := by
  unfold sineRun at h
  obtain ⟨L, hL, h⟩ := Option.map_eq_some_iff.1 h
  have hz : cycles.toNat = 0 := by omega
  cases hs : scaleInlineStyle unit str sineStyle with
  | error e => simp [hs, Except.map] at h
  | ok st =>
    simp only [hs, Except.map, hz] at h
    injection h with h
    subst h
    rfl

/-- **C182**, the wave: one path is drawn, in the style of the extension; its data are read as a move to the origin and four curves per cycle, each ending
a quarter of a wavelength to the right of the one before, at the crest, on the axis, in the trough, on the axis, all rounded to the digits of the
document; no other elements are drawn. -/
theorem C182_wave (unit : Str → Except PyErr ℚ) (str fmtG : ℚ → Str) (digits : Nat) (height : ℚ) (doc : XNode) (amp wl : ℚ) (cycles : Nat)
    (o : P ℚ) (r : SineDrawing) (h : sineRun unit str fmtG digits height doc amp wl (cycles + 1 : Nat) o = some (.ok r)) :
    ∃ d st cs, r.drawn = [.elem .svg "path".toList [("d".toList, d), ("style".toList, st)] []] ∧
      scaleInlineStyle unit str "fill:none;stroke:#000000;stroke-width:1px;stroke-opacity:1;".toList = .ok st ∧
      parsePath exactQ d = (('M', [roundQ digits o.x, roundQ digits o.y]) :: cs, none) ∧
      cs.map cmdEnd = (List.range (4 * (cycles + 1))).map fun i =>
        some ('C', ⟨roundQ digits (quarterEnd amp wl o i).x, roundQ digits (quarterEnd amp wl o i).y⟩) := by
  unfold sineRun at h
  obtain ⟨L, hL, h⟩ := Option.map_eq_some_iff.1 h
  cases hs : scaleInlineStyle unit str sineStyle with
  | error e => simp [hs, Except.map] at h
  | ok st =>
    simp only [hs, Except.map, Int.toNat_natCast] at h
    injection h with h
    subst h
    have hst := wave_starts amp wl o cycles
    have hen := wave_ends amp wl o (cycles + 1)
    cases hw : sineWave amp wl (cycles + 1) o with
    | nil => rw [hw] at hst; cases hst
    | cons q qs =>
      rw [hw] at hst hen
      simp only [List.head?_cons, Option.map_some, Option.some.injEq] at hst
      obtain ⟨d, hd, hp⟩ := C129_polypath digits false (.bez q) (qs.map Shape.bez)
      refine ⟨d, st, rounded (roundQ digits) ((q :: qs).flatMap fun b => cmdOf (.bez b)), ?_, hs, ?_, ?_⟩
      · dsimp only
        unfold polypathNode
        rw [List.map_cons, hd]
        rfl
      · rw [hp]
        simp [rounded, hst, Shape.p1, List.flatMap_map]
      · have e : ∀ l : List (Bez ℚ), (rounded (roundQ digits) (l.flatMap fun b => cmdOf (.bez b))).map cmdEnd =
            l.map fun b => some ('C', (⟨roundQ digits b.p2.x, roundQ digits b.p2.y⟩ : P ℚ)) := by
          intro l
          induction l with
          | nil => rfl
          | cons b l ih =>
            rw [List.flatMap_cons, List.map_cons, ← ih]
            rfl
        rw [e]
        have : ((q :: qs).map fun b => some ('C', (⟨roundQ digits b.p2.x, roundQ digits b.p2.y⟩ : P ℚ))) =
            ((q :: qs).map (·.p2)).map fun p => some ('C', (⟨roundQ digits p.x, roundQ digits p.y⟩ : P ℚ)) := by
          rw [List.map_map]
          rfl
        rw [this, hen, List.map_map]
        rfl

/-- **C182**, the layer: it has the name of the extension or that with the first free number, it is empty before, and it is a new layer at the end of the
document that turns the drawing upside down, so that the wave goes up from the lower edge of the page (if no layer of that name is there that is
empty, see the refutation). -/
theorem C182_layer_partial (env : NumEnv ℝ) (hex : ∀ neg m e, env.ofDec neg m e = (if neg then -(m : ℝ) else m) * 10 ^ e) (unit : Str → Except PyErr ℝ)
    (str fmtG : ℝ → Str) (digits : Nat) (height : ℝ) (n : Numeral) (hn : n.Valid) (ht : fmtG height = n.text) (doc : XNode)
    (hd : ∃ ns t a k, doc = .elem ns t a k) (amp wl : ℝ) (cycles : Int) (o : P ℝ) (r : SineDrawing)
    (h : sineRun unit str fmtG digits height doc amp wl cycles o = some (.ok r)) (hnew : ∀ q, ¬ LayerAt doc q r.made.name) :
    ((¬ HasContent doc "sine wave".toList ∧ r.made.name = "sine wave".toList) ∨ ∃ i, r.made.name = numbered "sine wave".toList i ∧
        ∀ j < i, HasContent doc (numbered "sine wave".toList j)) ∧
      EmptyLayer r.made.layer r.made.name ∧ AddedLast doc r.made.doc r.made.layer ∧
      ∃ m, parseTransform env (r.made.layer.get "transform".toList) = .ok m ∧ ∀ p, m.apply p = ⟨p.x, n.value env - p.y⟩ := by
  unfold sineRun at h
  obtain ⟨L, hL, h⟩ := Option.map_eq_some_iff.1 h
  have hr : r.made = L := by
    cases hs : scaleInlineStyle unit str sineStyle with
    | error e => simp [hs, Except.map] at h
    | ok st =>
      simp only [hs, Except.map] at h
      injection h with h
      rw [← h]
  rw [hr] at hnew ⊢
  obtain ⟨L', hL', h1, h2, h3⟩ := C123_suffix fmtG height doc hd { name := "sine wave".toList, incr := true, flipy := true } rfl
  rw [hL] at hL'
  injection hL' with hL'
  subst hL'
  obtain ⟨⟨m, hm, hmp⟩, -⟩ := C123_attributes env hex fmtG height n hn ht doc _ L hL hnew
  refine ⟨?_, h1, ?_, m, hm, fun p => by simpa using hmp p⟩
  · rcases h2 with ⟨a, b⟩ | ⟨-, i, a, -, b⟩
    · exact .inl ⟨a, b⟩
    · exact .inr ⟨i, a, b⟩
  · rcases h3 with ⟨-, q, hq, -⟩ | ⟨-, h3⟩
    · exact absurd hq.1 (hnew q)
    · exact h3

/-- A document with an empty layer. -/
def docWave : XNode := .elem .svg "svg".toList [] [.elem .svg "g".toList [("inkscape:label".toList, "sine wave".toList)] []]

/-- **C182**, a part that fails: an empty layer of that name is used as it is, so that the wave is not turned and starts from the upper edge. -/
theorem C182_refuted_layer : ((sineRun (fun _ => .ok 1) (fun _ => "1".toList) (fun _ : ℚ => "100".toList) 1 100 docWave 2 4 1 ⟨1, 2⟩).map fun r =>
    (r.toOption.map fun x => (x.made.name, x.made.layer.get "transform".toList, x.drawn.length))) = some (some ("sine wave".toList, none, 1)) := by
  decide +kernel

/-- A wave of one cycle, four wide and two high, from the point (1, 2). -/
example : ((sineRun (fun _ => .ok 1) (fun _ => "1".toList) (fun _ : ℚ => "100".toList) 1 100 docL 2 4 1 ⟨1, 2⟩).map fun r =>
    (r.toOption.map fun x => (x.made.name, x.drawn.length))) = some (some ("sine wave".toList, 1)) := by
  decide +kernel

end Verif.Ext
