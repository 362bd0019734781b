import Verif.Cam.Props36

/-!
# C188: when all stops are exact
-/

set_option linter.unusedSectionVars false

namespace Verif.Cam
open Verif PyFloat PyTrig Geom GCode
open Verif.Svg (LenUnit Numeral)

/-! ## Specification -/

/-- Specification: each coordinate is the same, or differs by more than `tol`. -/
def Distinct (tol : ℝ) (p q : P ℝ) : Prop := (p.x = q.x ∨ tol < |p.x - q.x|) ∧ (p.y = q.y ∨ tol < |p.y - q.y|)

/-- Specification: the machine is exactly at `p` in X and Y (one unit of the machine is `scale` user units). -/
def MachineAt (scale : ℝ) (m : Machine ℝ) (p : P ℝ) : Prop :=
  ∃ x y, m.pos 'X' = some x ∧ m.pos 'Y' = some y ∧ x * scale = p.x ∧ y * scale = p.y

/-- Specification: a leg made exactly: the machine ends exactly at its end (in height, within `tol`).  A traverse is a rapid move, a line a straight feed from its start to
its end, and an arc one circular feed from its start to its end, in its direction and about its centre. -/
def Exactly (tol scale : ℝ) (m : Machine ℝ) (t : Leg ℝ) (move : List (Block ℝ)) (m' : Machine ℝ) : Prop :=
  MachineAt scale m' t.stop.p ∧ (∀ z, t.stop.z = some z → ∃ w, m'.pos 'Z' = some w ∧ |w * scale - z| ≤ tol) ∧
  match t with
  | .traverse _ => ∀ b ∈ move, b.cmd = "G00".toList
  | .cut seg _ => MachineAt scale m seg.p1 ∧ ((∀ a, seg.shape ≠ .arc a) → ∀ b ∈ move, b.cmd = "G01".toList) ∧
    ∀ a, seg.shape = .arc a → ∃ b, move = [b] ∧ b.cmd = (if a.angle < 0 then "G02".toList else "G03".toList) ∧
      HasCentre scale b ⟨a.center.x - a.p1.x, a.center.y - a.p1.y⟩

/-! ## Proof -/

/-- Every cut starts where the leg before it ends, and arcs are on their circles. -/
def LegsJoined (prev : P ℝ) : List (Leg ℝ) → Prop
  | [] => True
  | .traverse p :: rest => LegsJoined p rest
  | .cut seg _ :: rest => seg.p1 = prev ∧ (∀ a, seg.shape = .arc a → a.OnCircle) ∧ LegsJoined seg.p2 rest

theorem lands_exact {tol scale : ℝ} {m m' : Machine ℝ} {k : Char} {v prev : ℝ} (h : Lands tol scale m m' k v) {x : ℝ} (hx : m.pos k = some x) (hp : x * scale = prev)
    (hd : prev = v ∨ tol < |prev - v|) : ∃ y, m'.pos k = some y ∧ y * scale = v := by
  obtain ⟨y, hy, h | ⟨h1, h2⟩⟩ := h
  · exact ⟨y, hy, h⟩
  · rw [hx, Option.some.injEq] at h1
    subst h1
    rw [hp] at h2
    rcases hd with rfl | hd
    · exact ⟨x, hy, hp⟩
    · linarith

theorem exactly_step {tol eps scale : ℝ} (he : 0 < eps) {m m' : Machine ℝ} {t : Leg ℝ} {move : List (Block ℝ)} {prev : P ℝ}
    (h : WellMade tol eps scale m t move m') (hm : MachineAt scale m prev) (hd : Distinct tol prev t.stop.p) (hj : LegsJoined prev [t]) :
    Exactly tol scale m t move m' := by
  obtain ⟨x, y, hx, hy, hpx, hpy⟩ := hm
  obtain ⟨⟨h1, h2, h3⟩, h4⟩ := h
  obtain ⟨x', hx', ex⟩ := lands_exact h1 hx hpx hd.1
  obtain ⟨y', hy', ey⟩ := lands_exact h2 hy hpy hd.2
  refine ⟨⟨x', y', hx', hy', ex, ey⟩, h3, ?_⟩
  cases t with
  | traverse p => exact h4
  | cut seg z =>
    obtain ⟨hp1, hon, -⟩ := hj
    refine ⟨⟨x, y, hx, hy, by rw [hpx, hp1], by rw [hpy, hp1]⟩, h4.1, ?_⟩
    intro a ha
    obtain ⟨x2, y2, hx2, hy2, -, hyes⟩ := h4.2 a ha
    rw [hx, Option.some.injEq] at hx2
    rw [hy, Option.some.injEq] at hy2
    subst hx2 hy2
    refine hyes ?_
    have hs : seg.p1 = a.p1 := by unfold Seg.p1; rw [ha]; rfl
    rw [hpx, hpy, ← hp1, hs, sqDist_comm', (hon a ha).2.1, Real.sqrt_sq (hon a ha).1, sub_self, abs_zero]
    exact he

theorem machineAt_still {scale : ℝ} {m : Machine ℝ} {idle : List (Block ℝ)} {p : P ℝ} (h : StillXY m idle) (hm : MachineAt scale m p) : MachineAt scale (m.run idle) p := by
  obtain ⟨x, y, hx, hy, h1, h2⟩ := hm
  exact ⟨x, y, by rw [h.2.1, hx], by rw [h.2.2, hy], h1, h2⟩

theorem journey_exact {tol eps scale : ℝ} (he : 0 < eps) {m : Machine ℝ} {bs : List (Block ℝ)} {ts : List (Leg ℝ)} (h : Journey (WellMade tol eps scale) m bs ts)
    (prev : P ℝ) (hm : MachineAt scale m prev) (hd : (prev :: ts.map fun t => t.stop.p).IsChain (Distinct tol)) (hj : LegsJoined prev ts) :
    Journey (Exactly tol scale) m bs ts := by
  induction h generalizing prev with
  | done m idle h => exact .done m idle h
  | leg m idle move rest t ts h1 h2 h3 _ ih =>
    rw [List.map_cons, List.isChain_cons_cons] at hd
    have hj1 : LegsJoined prev [t] ∧ LegsJoined t.stop.p ts := by
      cases t with
      | traverse p => exact ⟨trivial, hj⟩
      | cut seg z => exact ⟨⟨hj.1, hj.2.1, trivial⟩, hj.2.2⟩
    have hex := exactly_step he h3 (machineAt_still h1 hm) hd.1 hj1.1
    exact .leg m idle move rest t ts h1 h2 hex (ih t.stop.p hex.1 hd.2 hj1.2)

theorem journey_exact_off {tol eps scale : ℝ} (he : 0 < eps) {m : Machine ℝ} (hX : m.pos 'X' = none) (hY : m.pos 'Y' = none) {bs : List (Block ℝ)} {ts : List (Leg ℝ)}
    (h : Journey (WellMade tol eps scale) m bs ts) (hd : (ts.map fun t => t.stop.p).IsChain (Distinct tol)) (hfirst : ∀ t, ts.head? = some t → ∃ p, t = .traverse p)
    (hj : ∀ q, LegsJoined q ts) : Journey (Exactly tol scale) m bs ts := by
  cases h with
  | done m _ h => exact .done _ _ h
  | leg m idle move rest t ts h1 h2 h3 h4 =>
    obtain ⟨p, rfl⟩ := hfirst t rfl
    have hex : Exactly tol scale (m.run idle) (.traverse p) move (m.run (idle ++ move)) := by
      obtain ⟨⟨⟨x, hx, ex⟩, ⟨y, hy, ey⟩, h5⟩, h6⟩ := h3
      refine ⟨⟨x, y, hx, hy, ?_, ?_⟩, h5, h6⟩
      · rcases ex with h | ⟨h, -⟩
        · exact h
        · rw [h1.2.1, hX] at h; cases h
      · rcases ey with h | ⟨h, -⟩
        · exact h
        · rw [h1.2.2, hY] at h; cases h
    exact .leg _ idle move rest _ ts h1 h2 hex (journey_exact he h4 p hex.1 hd (hj p))

theorem joined_path (d : ℝ) (p : Path ℝ) (hc : Connected p) (hon : ∀ s ∈ p, ∀ a, s.shape = .arc a → a.OnCircle) (rest : List (Leg ℝ)) (hr : ∀ q, LegsJoined q rest) :
    ∀ q, LegsJoined q (legsOf d p ++ rest) := by
  intro q
  cases p with
  | nil => exact hr q
  | cons first p =>
    show LegsJoined first.p1 (((first :: p).map fun seg => Leg.cut seg (seg.hints.z.getD d)) ++ rest)
    induction p generalizing first with
    | nil => exact ⟨rfl, hon first (by simp), hr _⟩
    | cons s p ih =>
      unfold Connected at hc
      rw [List.isChain_cons_cons] at hc
      refine ⟨rfl, hon first (by simp), ?_⟩
      rw [hc.1]
      exact ih s hc.2 fun x hx => hon x (by simp [hx])

theorem joined_program (ds : List ℝ) (paths : List (Path ℝ)) (hc : ∀ p ∈ paths, Connected p) (hon : ∀ p ∈ paths, ∀ s ∈ p, ∀ a, s.shape = .arc a → a.OnCircle) :
    ∀ q, LegsJoined q (programLegs ds paths) := by
  have key : ∀ (d : ℝ) (rest : List (Leg ℝ)), (∀ q, LegsJoined q rest) → ∀ q, LegsJoined q (paths.flatMap (legsOf d) ++ rest) := by
    intro d rest hr
    induction paths with
    | nil => exact hr
    | cons p paths ih =>
      rw [List.flatMap_cons, List.append_assoc]
      exact joined_path d p (hc p (by simp)) (hon p (by simp)) _ (ih (fun x hx => hc x (by simp [hx])) fun x hx => hon x (by simp [hx]))
  induction ds with
  | nil => exact fun _ => trivial
  | cons d ds ih =>
    unfold programLegs
    rw [List.flatMap_cons]
    exact key d _ ih

theorem programLegs_head (ds : List ℝ) (paths : List (Path ℝ)) : ∀ t, (programLegs ds paths).head? = some t → ∃ p, t = .traverse p := by
  have key : ∀ (d : ℝ) (ps : List (Path ℝ)) (rest : List (Leg ℝ)), (∀ t, rest.head? = some t → ∃ p, t = .traverse p) →
      ∀ t, (ps.flatMap (legsOf d) ++ rest).head? = some t → ∃ p, t = .traverse p := by
    intro d ps rest hr
    induction ps with
    | nil => exact hr
    | cons p ps ih =>
      intro t ht
      rw [List.flatMap_cons, List.append_assoc] at ht
      cases p with
      | nil => exact ih t ht
      | cons s p =>
        simp only [legsOf, List.cons_append, List.head?_cons, Option.some.injEq] at ht
        exact ⟨_, ht.symm⟩
  induction ds with
  | nil => simp [programLegs]
  | cons d ds ih =>
    unfold programLegs
    rw [List.flatMap_cons]
    exact key d paths _ ih

/-- **C188**, exactness: if every path is connected and its arcs are on their circles, and the coordinates of consecutive stops are equal or more than the tolerance apart, then every completed
program makes every leg exactly: the machine is exactly at the start and at the end of every segment, lines are straight feeds and all arcs circular feeds about their own centre. -/
theorem C188_exact (v : Str) (doc : DocInfo ℝ) (hc : doc.conv.Positive) (hs : doc.viewScale ≠ 0) (e : Env ℝ) (he : 0 < e.eps) (o : TOpts ℝ) (ht : 0 ≤ o.tolerance)
    (l paths : List (Path ℝ)) (ds : List ℝ) (s : Cam ℝ) (h : Generated (realEnv v) doc e o l ds s) (herr : s.err = none)
    (hprep : prepare e (initCam o) o.tolerance l = .ok paths) (hp : ∀ p ∈ paths, SimplePath p) (hconn : ∀ p ∈ paths, Connected p)
    (hon : ∀ p ∈ paths, ∀ s ∈ p, ∀ a, s.shape = .arc a → a.OnCircle)
    (hapart : ((programLegs ds paths).map fun t => t.stop.p).IsChain (Distinct o.tolerance)) :
    ∃ u : LenUnit, (u = .inch ∨ u = .mm) ∧ gcodeUnit o.gcodeUnits doc.docUnits = .ok u.name ∧
      Journey (Exactly o.tolerance (u.size doc.conv.em doc.conv.ex * doc.viewScale)) Machine.off (blocksOf s.gen.out) (programLegs ds paths) := by
  obtain ⟨u, hu, hgu, hj⟩ := C188_journey_partial v doc hc hs e o ht l paths ds s h herr hprep hp
  exact ⟨u, hu, hgu, journey_exact_off he rfl rfl hj hapart (programLegs_head ds paths) (joined_program ds paths hconn hon)⟩

/-- Non-vacuity of `C188_exact`: the program of a half circle and a line. -/
example : ∃ ds s, Generated (realEnv []) docR envR (toptR "mm".toList 1) roundR ds s ∧ s.err = none ∧
    prepare envR (initCam (toptR "mm".toList 1)) (toptR "mm".toList 1).tolerance roundR = .ok roundR ∧ (∀ p ∈ roundR, SimplePath p) ∧ (∀ p ∈ roundR, Connected p) ∧
    (∀ p ∈ roundR, ∀ s ∈ p, ∀ a, s.shape = .arc a → a.OnCircle) ∧ ((programLegs ds roundR).map fun t => t.stop.p).IsChain (Distinct (toptR "mm".toList 1).tolerance) := by
  have hs : ∀ p ∈ roundR, SimplePath p := by
    intro p hp s hs
    simp only [roundR, List.mem_singleton] at hp
    subst hp
    simp only [List.mem_cons, List.not_mem_nil, or_false] at hs
    rcases hs with rfl | rfl
    · exact Or.inr ⟨_, rfl⟩
    · exact Or.inl ⟨_, rfl⟩
  have hp := C110_uncompensated envR (toptR "mm".toList 1) rfl rfl rfl rfl rfl rfl (toptR "mm".toList 1).tolerance roundR hs
  obtain ⟨ds, s, h1, h2⟩ := C104_completes_partial [] docR docR_positive (by simp [docR]) envR (by norm_num [envR]) (toptR "mm".toList 1) (by intro h; cases h) .mm (.inr rfl) rfl
    (by norm_num [toptR]) (by norm_num [toptR]) rfl roundR roundR hp
  refine ⟨ds, s, h1, h2, hp, hs, ?_, ?_, ?_⟩
  · intro p hp
    simp only [roundR, List.mem_singleton] at hp
    subst hp
    unfold Connected
    rw [List.isChain_cons_cons]
    exact ⟨rfl, by simp⟩
  · intro p hp s hs a ha
    simp only [roundR, List.mem_singleton] at hp
    subst hp
    simp only [List.mem_cons, List.not_mem_nil, or_false] at hs
    rcases hs with rfl | rfl
    · simp only [Shape.arc.injEq] at ha
      subst ha
      exact ⟨by norm_num, by norm_num [sqDist], by norm_num [sqDist]⟩
    · cases ha
  · have hpts : ∀ ds : List ℝ, ((programLegs ds roundR).map fun t => t.stop.p) = ds.flatMap fun _ => [⟨0, 0⟩, ⟨90, 0⟩, ⟨90, 45⟩] := by
      intro ds
      induction ds with
      | nil => rfl
      | cons d ds ih =>
        unfold programLegs at ih ⊢
        rw [List.flatMap_cons, List.map_append, ih, List.flatMap_cons]
        rfl
    rw [hpts]
    have ht : (toptR "mm".toList 1).tolerance < 45 := by norm_num [toptR]
    generalize (toptR "mm".toList 1).tolerance = tol at ht ⊢
    have key : ∀ ds : List ℝ, ((⟨90, 45⟩ : P ℝ) :: ds.flatMap fun _ => [⟨0, 0⟩, ⟨90, 0⟩, ⟨90, 45⟩]).IsChain (Distinct tol) := by
      intro ds
      induction ds with
      | nil => simp
      | cons d ds ih =>
        rw [List.flatMap_cons]
        simp only [List.cons_append, List.nil_append, List.isChain_cons_cons]
        refine ⟨⟨Or.inr ?_, Or.inr ?_⟩, ⟨Or.inr ?_, Or.inl rfl⟩, ⟨Or.inl rfl, Or.inr ?_⟩, ih⟩ <;> norm_num <;> linarith
    exact (key ds).tail

end Verif.Cam
