import Verif.Props.XYTMore
/-! # (x, y, theta) lattice environment: concrete environments and counterexamples -/

namespace Sbpl.XYTProps
open XEnv XSpec

/-- initialise and run -/
def tryX (s : Setup) (ops : List Op) : Option XEnv :=
  match init s with
  | .ok st => st.run ops
  | .error _ => none

theorem tryX_hist {s : Setup} {ops : List Op} {st : XEnv} (ok : SetupOk s) (hc : ∀ op ∈ ops, CallOk s op) (h : tryX s ops = some st) : Hist s ops st := by
  unfold tryX at h
  split at h
  next st0 h0 => exact ⟨ok, hc, st0, h0, h⟩
  next => cases h

/-- if a function of the result of a run has a value, then the run is a history -/
theorem tryX_ok {α : Type} {s : Setup} {ops : List Op} {f : XEnv → α} {v : α} (ok : SetupOk s) (hc : ∀ op ∈ ops, CallOk s op)
    (h : (tryX s ops).map f = some v) : ∃ st, Hist s ops st ∧ f st = v := by
  cases ht : tryX s ops with
  | none => rw [ht] at h; cases h
  | some st =>
    rw [ht] at h
    simp only [Option.map_some, Option.some.injEq] at h
    exact ⟨st, tryX_hist ok hc ht, h⟩

/-- what GetSuccs, GetPreds etc. report, without the actions -/
def brief (r : Except XErr (XEnv × List (Nat × Nat × XAct))) : Option (List (Nat × Nat × Nat)) :=
  match r with
  | .ok r => some (r.2.map (fun e => (e.1, e.2.1, e.2.2.aind)))
  | .error _ => none

/-- the ID found or created for coordinates -/
def idOf (r : Except XErr (XEnv × Nat)) : Option Nat :=
  match r with
  | .ok r => some r.2
  | .error _ => none

/-- the call reads outside an array -/
def isOob {α : Type} (r : Except XErr α) : Bool :=
  match r with
  | .error .oob => true
  | _ => false

/-- the value, if there is one -/
def okOf {α : Type} (r : Except XErr α) : Option α :=
  match r with
  | .ok r => some r
  | .error _ => none

/-- `f` holds of the environments after two histories -/
def try2 (s : Setup) (ops ops' : List Op) (f : XEnv → XEnv → Bool) : Bool :=
  match tryX s ops with
  | none => false
  | some st => match st.run ops' with
    | none => false
    | some st2 => f st st2

theorem try2_ok {s : Setup} {ops ops' : List Op} {f : XEnv → XEnv → Bool} (h : try2 s ops ops' f = true) :
    ∃ st st2, tryX s ops = some st ∧ st.run ops' = some st2 ∧ f st st2 = true := by
  unfold try2 at h
  cases ht : tryX s ops with
  | none => rw [ht] at h; cases h
  | some st =>
    rw [ht] at h
    dsimp only at h
    cases ht2 : st.run ops' with
    | none => rw [ht2] at h; cases h
    | some st2 => rw [ht2] at h; exact ⟨st, st2, rfl, ht2, h⟩

/-- four headings; for each: one cell forward, and a quarter turn on the spot -/
def demoPrims : List MPrim :=
  [⟨0, 1, 0, 0, [(0, 0, 0), (1, 0, 0)], 1000, none⟩, ⟨0, 0, 0, 1, [(0, 0, 0)], 300, none⟩,
   ⟨1, 0, 1, 1, [(0, 0, 0), (0, 1, 0)], 1000, none⟩, ⟨1, 0, 0, 2, [(0, 0, 0)], 300, none⟩,
   ⟨2, -1, 0, 2, [(0, 0, 0), (-1, 0, 0)], 1000, none⟩, ⟨2, 0, 0, 3, [(0, 0, 0)], 300, none⟩,
   ⟨3, 0, -1, 3, [(0, 0, 0), (0, -1, 0)], 1000, none⟩, ⟨3, 0, 0, -4, [(0, 0, 0)], 300, none⟩]

/-- a map of 4 × 3 cells with an obstacle in the middle -/
def demo : Setup :=
  { W := 4, H := 3, T := 4, cs := 1, obs := 10, inscr := 8, circ := 5, poly := false, foot := pointFoot 1, prims := demoPrims,
    map := fun i => if i = 5 then 10 else if i = 2 then 2 else 0, start := (0, 0, 0), goal := (3, 2, 1) }

theorem demo_ok : SetupOk demo := ⟨by decide, by decide⟩

/-- non-vacuity of C49 – C54: a history of the demo environment, with what the calls report -/
example : ∃ st, Hist demo [.getSuccs 0, .getSuccs 2, .updateCost 0 0 3] st ∧
    brief (st.getSuccs 0) = some [(2, 4000, 0), (3, 1200, 1)] ∧ brief (st.getSuccs 2) = some [(4, 3000, 0), (5, 300, 1)] ∧
    brief (st.getPreds 2) = some [(0, 4000, 0), (6, 300, 1)] ∧ brief (st.getLazySuccs 0) = some [(2, 1000, 0), (3, 300, 1)] ∧
    okOf (st.getTrueCost 0 2) = some (some 4000) ∧ (st.changedPreds [(0, 0)]).2 = [0, 3] ∧
    (okOf (st.pathActions [0, 2, 4])).map (fun r => r.2.map XAct.cost) = some [1000, 1000] ∧ okOf (st.pathActions [0, 4]) = none := by
  obtain ⟨st, st2, h1, h2, h3⟩ := try2_ok (s := demo) (ops := [.getSuccs 0, .getSuccs 2, .updateCost 0 0 3]) (ops' := []) (f := fun st _ =>
    decide (brief (st.getSuccs 0) = some [(2, 4000, 0), (3, 1200, 1)]) && decide (brief (st.getSuccs 2) = some [(4, 3000, 0), (5, 300, 1)]) &&
    decide (brief (st.getPreds 2) = some [(0, 4000, 0), (6, 300, 1)]) && decide (brief (st.getLazySuccs 0) = some [(2, 1000, 0), (3, 300, 1)]) &&
    decide (okOf (st.getTrueCost 0 2) = some (some 4000)) && decide ((st.changedPreds [(0, 0)]).2 = [0, 3]) &&
    decide ((okOf (st.pathActions [0, 2, 4])).map (fun r => r.2.map XAct.cost) = some [1000, 1000]) && (okOf (st.pathActions [0, 4])).isNone)
    (by decide +kernel)
  refine ⟨st, tryX_hist demo_ok (by simp [CallOk]) h1, ?_⟩
  simpa [and_assoc] using h3

/-- the hypotheses of the positive parts of C52 and C53 hold of the demo environment -/
example : EndsDistinct demo := by
  intro t
  have key : ∀ l : List MPrim, l.Pairwise (fun m m' => m.startTheta = m'.startTheta → m.dX ≠ m'.dX ∨ m.dY ≠ m'.dY ∨
      ¬ ∃ r, UtilsSpec.IsResidue m.endTheta demo.T r ∧ UtilsSpec.IsResidue m'.endTheta demo.T r) →
      (l.filter (fun m => decide (m.startTheta = t))).Pairwise (fun m m' => m.dX ≠ m'.dX ∨ m.dY ≠ m'.dY ∨
      ¬ ∃ r, UtilsSpec.IsResidue m.endTheta demo.T r ∧ UtilsSpec.IsResidue m'.endTheta demo.T r) := by
    intro l hl
    rw [List.pairwise_filter]
    refine hl.imp ?_
    intro m m' h h1 h2
    exact h ((of_decide_eq_true h1).trans (of_decide_eq_true h2).symm)
  apply key
  have dec : ∀ l : List MPrim, (l.Pairwise (fun m m' => m.startTheta = m'.startTheta → m.dX ≠ m'.dX ∨ m.dY ≠ m'.dY)) →
      l.Pairwise (fun m m' => m.startTheta = m'.startTheta → m.dX ≠ m'.dX ∨ m.dY ≠ m'.dY ∨
        ¬ ∃ r, UtilsSpec.IsResidue m.endTheta demo.T r ∧ UtilsSpec.IsResidue m'.endTheta demo.T r) := by
    intro l hl
    refine hl.imp ?_
    intro m m' h e
    rcases h e with h | h
    · exact .inl h
    · exact .inr (.inl h)
  exact dec demo.prims (by decide +kernel)

example : CentreTouched demo := by
  have key : demoPrims.all (fun m => (intermCells 1 m.pts).all (fun q => decide (q = (0, 0)) || decide (q = (m.dX, m.dY)))) = true := by decide +kernel
  intro m hm r hr
  have h1 := List.all_eq_true.mp key m hm
  have h2 := List.all_eq_true.mp h1 r (mem_intermCells (s := demo) |>.mpr hr)
  rw [Bool.or_eq_true, decide_eq_true_iff, decide_eq_true_iff] at h2
  rcases h2 with h | h
  · exact .inl h
  · exact .inr (.inl h)

/-! ## C49: where it fails -/

/-- 256 headings, no primitives -/
def many (W : Int) : Setup :=
  { W := W, H := W, T := 256, cs := 1, obs := 10, inscr := 8, circ := 5, poly := false, foot := pointFoot 1, prims := [], map := fun _ => 0,
    start := (0, 0, 200), goal := (1, 0, 0) }

/-- **C49, violated beyond 128 headings** The heading of a state is kept in a `char`: with 256 headings the coordinates of the start (heading 200) are
reported as (0, 0, -56), and GetSuccs reads outside the table of actions. -/
theorem headings_overflow : ∃ st, tryX (many 2) [] = some st ∧ (many 2).start = (0, 0, 200) ∧ okOf (st.getCoord st.startId) = some (0, 0, -56) ∧
    isOob (st.getSuccs st.startId) = true := by
  obtain ⟨st, st2, h1, h2, h3⟩ := try2_ok (s := many 2) (ops := []) (ops' := []) (f := fun st _ =>
    decide (okOf (st.getCoord st.startId) = some (0, 0, -56)) && isOob (st.getSuccs st.startId)) (by decide +kernel)
  exact ⟨st, h1, rfl, by simpa using h3⟩

/-- **C49, violated beyond 128 headings** In a map so large that states are kept in the hash table the same coordinates get a new ID each time they are looked up. -/
theorem headings_overflow_hash : ∃ st st2, tryX (many 100000) [] = some st ∧ idOf (st.getState (0, 0, 200)) = some 2 ∧
    st.run [.getState (0, 0, 200)] = some st2 ∧ idOf (st2.getState (0, 0, 200)) = some 3 := by
  obtain ⟨st, st2, h1, h2, h3⟩ := try2_ok (s := many 100000) (ops := []) (ops' := [.getState (0, 0, 200)]) (f := fun st st2 =>
    decide (idOf (st.getState (0, 0, 200)) = some 2) && decide (idOf (st2.getState (0, 0, 200)) = some 3)) (by decide +kernel)
  simp only [Bool.and_eq_true, decide_eq_true_iff] at h3
  exact ⟨st, st2, h1, h3.1, h2, h3.2⟩

/-- **C49, violated for an angle half a heading below a full turn** SetGoal accepts it, gives it the heading 4 (of 0 .. 3), and overwrites the slot of the state one cell
to the right with heading 0: state (1, 0, 0) had the ID 2, and now has the ID 3, that of the goal; GetPreds of the goal reads outside the table of actions. -/
theorem goal_heading_aliases : ∃ st st2,
    Hist demo [.getState (1, 0, 0)] st ∧ idOf (st.getState (1, 0, 0)) = some 2 ∧
    st.run [.setGoal 0 0 (2 * Utils.PI_CONST - Utils.PI_CONST / 4)] = some st2 ∧ st2.goalId = 3 ∧
    idOf (st2.getState (1, 0, 0)) = some 3 ∧ isOob (st2.getPreds st2.goalId) = true := by
  obtain ⟨st, st2, h1, h2, h3⟩ := try2_ok (s := demo) (ops := [.getState (1, 0, 0)])
    (ops' := [.setGoal 0 0 (2 * Utils.PI_CONST - Utils.PI_CONST / 4)]) (f := fun st st2 =>
    decide (idOf (st.getState (1, 0, 0)) = some 2) && decide (st2.goalId = 3) && decide (idOf (st2.getState (1, 0, 0)) = some 3) &&
    isOob (st2.getPreds st2.goalId)) (by decide +kernel)
  simp only [Bool.and_eq_true, decide_eq_true_iff, and_assoc] at h3
  exact ⟨st, st2, tryX_hist demo_ok (by intro op ho; rw [List.mem_singleton] at ho; subst ho; exact ⟨by decide, by decide, by decide⟩) h1, h3.1, h2, h3.2⟩

/-! ## C52: where it fails -/

/-- the cells met by a square robot of side 2.8, on cells of side 1 -/
def sqFoot (p : ℚ × ℚ × ℚ) : List (Int × Int) :=
  (List.range 4).flatMap fun i => (List.range 4).map fun j => (⌊p.1 - 7 / 5⌋ + (i : Int), ⌊p.2.1 - 7 / 5⌋ + (j : Int))

/-- one heading, one primitive: three cells forward -/
def wide : Setup :=
  { W := 8, H := 3, T := 1, cs := 1, obs := 10, inscr := 8, circ := 5, poly := true, foot := sqFoot,
    prims := [⟨0, 3, 0, 0, [(0, 0, 0), (1, 0, 0), (2, 0, 0), (3, 0, 0)], 1000, none⟩],
    map := fun _ => 0, start := (2, 1, 0), goal := (7, 1, 0) }

/-- **C52, violated for robots larger than a cell** The centre of the robot crosses cell (3, 1), which the robot covers at the source pose: when the cost
of this cell changes from 0 to 4, the cost of the only edge changes from 1000 to 5000, but GetPredsofChangedEdges reports no state. -/
theorem changed_edge_missed : ∃ st st2, Hist wide [] st ∧ st.run [.updateCost 3 1 4] = some st2 ∧
    brief (st.getSuccs st.startId) = some [(2, 1000, 0)] ∧ brief (st2.getSuccs st2.startId) = some [(2, 5000, 0)] ∧ st2.startId = st.startId ∧
    (st2.changedPreds [(3, 1)]).2 = [] := by
  obtain ⟨st, st2, h1, h2, h3⟩ := try2_ok (s := wide) (ops := []) (ops' := [.updateCost 3 1 4]) (f := fun st st2 =>
    decide (brief (st.getSuccs st.startId) = some [(2, 1000, 0)]) && decide (brief (st2.getSuccs st2.startId) = some [(2, 5000, 0)]) &&
    decide (st2.startId = st.startId) && decide ((st2.changedPreds [(3, 1)]).2 = [])) (by decide +kernel)
  simp only [Bool.and_eq_true, decide_eq_true_iff, and_assoc] at h3
  exact ⟨st, st2, tryX_hist ⟨by decide, by decide⟩ (by simp) h1, h2, h3⟩

/-! ## C53: where it fails -/

/-- one heading, two primitives with the same end: a detour of cost 50, and a straight one of cost 20 -/
def twin : Setup :=
  { W := 3, H := 2, T := 1, cs := 1, obs := 10, inscr := 8, circ := 5, poly := false, foot := pointFoot 1,
    prims := [⟨0, 2, 0, 0, [(0, 0, 0), (0, 1, 0), (1, 1, 0), (2, 1, 0), (2, 0, 0)], 50, none⟩, ⟨0, 2, 0, 0, [(0, 0, 0), (1, 0, 0), (2, 0, 0)], 20, none⟩],
    map := fun _ => 0, start := (0, 0, 0), goal := (2, 1, 0) }

/-- **C53, violated when two primitives lead to the same state** GetTrueCost only looks at the first of them: it reports 50 although GetSuccs reports an edge of cost
20 too, and -1 (no edge) when the detour is blocked although GetSuccs reports the edge of cost 20. -/
theorem true_cost_wrong : ∃ st st2, Hist twin [.getSuccs 0] st ∧ st.run [.updateCost 1 1 9] = some st2 ∧
    brief (st.getSuccs 0) = some [(2, 50, 0), (2, 20, 1)] ∧ okOf (st.getTrueCost 0 2) = some (some 50) ∧
    brief (st2.getSuccs 0) = some [(2, 20, 1)] ∧ okOf (st2.getTrueCost 0 2) = some none := by
  obtain ⟨st, st2, h1, h2, h3⟩ := try2_ok (s := twin) (ops := [.getSuccs 0]) (ops' := [.updateCost 1 1 9]) (f := fun st st2 =>
    decide (brief (st.getSuccs 0) = some [(2, 50, 0), (2, 20, 1)]) && decide (okOf (st.getTrueCost 0 2) = some (some 50)) &&
    decide (brief (st2.getSuccs 0) = some [(2, 20, 1)]) && decide (okOf (st2.getTrueCost 0 2) = some none)) (by decide +kernel)
  simp only [Bool.and_eq_true, decide_eq_true_iff, and_assoc] at h3
  exact ⟨st, st2, tryX_hist ⟨by decide, by decide⟩ (by simp [CallOk]) h1, h2, h3⟩

end Sbpl.XYTProps
