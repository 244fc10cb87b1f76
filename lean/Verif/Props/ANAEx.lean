import Verif.Props.ANA
/-!
# `anaPlanner`: concrete runs meeting the hypotheses of C86–C91, and what goes wrong outside them (C92, C93)
-/

namespace Sbpl.ANAProps
open GraphSpec ANA ANASpec
open PlannerSpec (EnvOk PredsOk HeurOk searchGraph)
open ARAProps (tableEnv tableEnv_ok mem_tableSucc)

/-- construct, make the calls `ops`, call `replan` -/
def anaRun (env : PEnv) (fwd : Bool) (ops : List Op) (bs : List Nat) : Option Result :=
  match (ANA.init env fwd).run ops with
  | none => none
  | some st => match st.replan bs with
    | .ok (_, r) => some r
    | .error _ => none

theorem anaRun_some {env : PEnv} {fwd : Bool} {ops : List Op} {bs : List Nat} {r : Result}
    (h : anaRun env fwd ops bs = some r) :
    ∃ st st', (ANA.init env fwd).run ops = some st ∧ st.replan bs = .ok (st', r) := by
  unfold anaRun at h
  split at h
  · cases h
  · rename_i st h1
    split at h
    · rename_i st' r' h2
      cases h
      exact ⟨st, st', h1, h2⟩
    · cases h

/-- outcome of a run that ends with an exception -/
def anaErr (env : PEnv) (fwd : Bool) (ops : List Op) (bs : List Nat) : Option PErr :=
  match (ANA.init env fwd).run ops with
  | none => none
  | some st => match st.replan bs with
    | .ok _ => none
    | .error x => some x

theorem anaErr_some {env : PEnv} {fwd : Bool} {ops : List Op} {bs : List Nat} {x : PErr}
    (h : anaErr env fwd ops bs = some x) : ∃ st, (ANA.init env fwd).run ops = some st ∧ st.replan bs = .error x := by
  unfold anaErr at h
  split at h
  · cases h
  · rename_i st h1
    split at h
    · cases h
    · rename_i x' h2
      cases h
      exact ⟨st, h1, h2⟩

def hzero (_ _ : Nat) : Nat := 0

theorem zero_heurOk (es : List (Nat × Nat × Nat)) (fwd : Bool) : HeurOk (tableEnv es hzero hzero) fwd := by
  unfold HeurOk
  split
  · exact fun gl => ⟨rfl, fun _ _ _ _ => Nat.zero_le _⟩
  · exact fun gl s => ⟨rfl, fun _ _ _ _ => Nat.zero_le _⟩

/-! ## Non-vacuity -/

/-- a direct edge of cost 10 and a detour of cost 3 -/
def detour : List (Nat × Nat × Nat) := [(0, 3, 10), (0, 1, 1), (1, 2, 1), (2, 3, 1)]
def detourH (gl s : Nat) : Nat := if gl = 3 then 3 - s else 0
def detourEnv : PEnv := tableEnv detour detourH hzero
def detourOps : List Op := [.setGoal 3, .setStart 0]

theorem detour_ok : EnvOk detourEnv := tableEnv_ok _ _ _ (by decide)

theorem detour_heurOk : HeurOk detourEnv true := by
  show ∀ gl, Consistent _ _ _
  intro gl
  refine ⟨?_, ?_⟩
  · show detourH gl gl = 0
    unfold detourH
    split
    next h => omega
    · rfl
  · intro s t c h
    show detourH gl s ≤ detourH gl t + c
    simp only [detourEnv, tableEnv] at h
    split at h
    · cases h
    · have hm := mem_tableSucc.mp h
      have key : ∀ e ∈ detour, detourH 3 e.1 ≤ detourH 3 e.2.1 + e.2.2 := by decide
      by_cases q : gl = 3
      · subst q; exact key _ hm
      · simp [detourH, q]

theorem detourOps_ok : ∀ op ∈ detourOps, OpOk op := by
  intro op h
  simp only [detourOps, List.mem_cons, List.not_mem_nil, or_false] at h
  rcases h with rfl | rfl <;> trivial

theorem detour_ready {bs : List Nat} (h : bs ≠ []) : Ready true bs .new detourOps := by
  refine ⟨fun _ => rfl, fun _ => h⟩

/-- A first `replan` that is cut short returns the direct path with bound 10/3; a second one improves it to the
optimum (C86, C88, C90, C91). -/
example : ∃ st st' res, EnvOk detourEnv ∧ HeurOk (lastEnv detourEnv detourOps) true ∧
    AdmOk (lastEnv detourEnv detourOps) true ∧ (∀ op ∈ detourOps, OpOk op) ∧ Ready true [2] .new detourOps ∧
    lastStart detourOps = some 0 ∧ lastGoal detourOps = some 3 ∧
    (init detourEnv true).run detourOps = some st ∧ st.replan [2] = .ok (st', res) ∧
    res.found = true ∧ res.path = [0, 3] ∧ res.cost = 10 ∧ res.eps = (10, 3) ∧ res.traces = [[0]] := by
  have e : anaRun detourEnv true detourOps [2] = some ⟨true, [0, 3], 10, (10, 3), [[0]]⟩ := by decide +kernel
  obtain ⟨st, st', h1, h2⟩ := anaRun_some e
  exact ⟨st, st', _, detour_ok, detour_heurOk, admOk_of_heurOk detour_heurOk, detourOps_ok, detour_ready (by simp), rfl, rfl,
    h1, h2, rfl, rfl, rfl, rfl, rfl⟩

example : ∃ st st' st'' res res', (init detourEnv true).run detourOps = some st ∧ st.replan [2] = .ok (st', res) ∧
    st'.replan [3] = .ok (st'', res') ∧ res'.path = [0, 1, 2, 3] ∧ res'.cost = 3 ∧ res'.eps = (10, 3) := by
  have e : anaRun detourEnv true (detourOps ++ [.replan [2]]) [3] = some ⟨true, [0, 1, 2, 3], 3, (10, 3), [[1, 2]]⟩ := by
    decide +kernel
  obtain ⟨st, st', h1, h2⟩ := anaRun_some e
  obtain ⟨s, h3⟩ : ∃ s, (init detourEnv true).run detourOps = some s := ⟨_, rfl⟩
  have h4 : (detourOps ++ [.replan [2]] : List Op) = [.setGoal 3, .setStart 0, .replan [2]] := rfl
  rw [h4] at h1
  have h5 : s.run [.replan [2]] = some st := by
    simp only [detourOps, run, step, Option.some.injEq] at h3
    simp only [run] at h1 ⊢
    simp only [step] at h1 ⊢
    rw [← h3]; exact h1
  simp only [run, step] at h5
  cases e2 : s.replan [2] with
  | error x => rw [e2] at h5; cases h5
  | ok q =>
    obtain ⟨x, r⟩ := q
    rw [e2] at h5
    cases h5
    exact ⟨s, st, st', r, _, h3, e2, h2, rfl, rfl, rfl⟩

/-- A backward search after `costs_changed`, and a change of the state searched towards together with
`force_planning_from_scratch`: still ready. -/
example : ∃ st st' res, Ready false [9, 9] .new [.setGoal 3, .setStart 0, .replan [9], .setStart 1, .forceScratch] ∧
    (init detourEnv false).run [.setGoal 3, .setStart 0, .replan [9], .setStart 1, .forceScratch] = some st ∧
    st.replan [9, 9] = .ok (st', res) ∧ res.found = true ∧ res.path = [1, 2, 3] ∧ res.cost = 2 := by
  have e : anaRun detourEnv false [.setGoal 3, .setStart 0, .replan [9], .setStart 1, .forceScratch] [9, 9] =
      some ⟨true, [1, 2, 3], 2, (1000000000, 1), [[3, 0, 2]]⟩ := by decide +kernel
  obtain ⟨st, st', h1, h2⟩ := anaRun_some e
  exact ⟨st, st', _, ⟨⟨fun _ => rfl, fun _ => List.cons_ne_nil _ _⟩, fun _ => rfl, fun _ => List.cons_ne_nil _ _⟩, h1, h2, rfl, rfl, rfl⟩

/-- the states reachable in `detourEnv` (C89) -/
example : ∀ s c, Walk (searchGraph detourEnv true 3) 0 s c → s ∈ [0, 1, 2, 3] := by
  intro s c w
  induction w with
  | nil => decide
  | @snoc b t n c _ hm ih =>
    simp only [searchGraph, if_true, detourEnv, tableEnv] at hm
    rw [if_neg (by omega)] at hm
    have := mem_tableSucc.mp hm
    simp only [detour, List.mem_cons, Prod.mk.injEq, List.not_mem_nil, or_false] at this
    rcases this with h | h | h | h <;> (rw [h.2.1]; decide)

/-- **C89** is not vacuous: the budgets it asks for exist. -/
example : ∃ bs : List Nat, (∀ n ∈ bs, (2 * INFINITECOST + 1) * [0, 1, 2, 3].length < n) ∧
    (2 * INFINITECOST + 1) * [0, 1, 2, 3].length < bs.length := by
  refine ⟨List.replicate ((2 * INFINITECOST + 1) * 4 + 1) ((2 * INFINITECOST + 1) * 4 + 1), ?_, ?_⟩
  · intro n hn
    rw [List.eq_of_mem_replicate hn]; exact Nat.lt_succ_self _
  · rw [List.length_replicate]; exact Nat.lt_succ_self _

/-! ## C92: changing the state searched towards without a restart -/

theorem searchLoop_empty {gl : Nat} (bs : List Nat) {st : ANA} (h : st.heap.size = 0) : searchLoop gl bs st = .ok (st, []) := by
  cases bs with
  | nil => rfl
  | cons b bs => unfold searchLoop; rw [if_neg (by simp [Heap.isEmpty, h])]

def chainEnv : PEnv := tableEnv [(0, 1, 1), (1, 2, 1)] hzero hzero
def moveOps : List Op := [.setGoal 1, .setStart 0, .replan [9, 9], .setGoal 2]

/-- **C92a, refuted** "After set_goal, replan plans to the new goal": after planning from 0 to 1 and then setting the
goal to 2, which can be reached over 1, `replan` reports that there is no path however much time it is given: the
old goal left OPEN without being expanded, and the search is not restarted. -/
theorem goal_change_misses_path :
    EnvOk chainEnv ∧ HeurOk chainEnv true ∧ Walk (chainEnv.succs 2) 0 2 2 ∧
    ∃ st, (init chainEnv true).run moveOps = some st ∧
      ∀ bs, ∃ st' res, st.replan bs = .ok (st', res) ∧ res.found = false := by
  refine ⟨tableEnv_ok _ _ _ (by decide), zero_heurOk _ _, ?_, ?_⟩
  · exact (Walk.nil.snoc (t := 1) (c := 1) (by decide)).snoc (t := 2) (c := 1) (by decide)
  · have e : (match (init chainEnv true).run moveOps with
        | none => none
        | some st => some (st.heap.size, st.bReinit, st.start, st.goal, st.g 2)) =
        some (0, false, some 0, some 2, INFINITECOST) := by decide +kernel
    cases h : (init chainEnv true).run moveOps with
    | none => rw [h] at e; cases e
    | some st =>
      rw [h] at e
      simp only [Option.some.injEq, Prod.mk.injEq] at e
      obtain ⟨e1, e2, e3, e4, e5⟩ := e
      refine ⟨st, rfl, fun bs => ⟨st, ⟨false, [], st.g 2, st.epsSat, []⟩, ?_, rfl⟩⟩
      unfold replan
      rw [e3, e4]
      simp only [e2, Bool.false_eq_true, if_false]
      rw [searchLoop_empty bs e1]
      simp only [e5, if_true]

def oldEnv : PEnv := tableEnv [(0, 2, 5), (0, 1, 1)] hzero hzero
def newEnv : PEnv := tableEnv [(0, 1, 1)] hzero hzero
def staleOps : List Op :=
  [.setGoal 2, .setStart 0, .replan [9, 9], .costsChanged newEnv, .setGoal 1, .replan [9, 9], .setGoal 2]

/-- **C92b, refuted** "A path returned by replan is a path of the current environment": with changes of the goal but no
restart, `replan` returns a path found before `costs_changed` although its only edge no longer exists. -/
theorem goal_change_stale_path :
    EnvOk oldEnv ∧ EnvOk newEnv ∧ HeurOk oldEnv true ∧ HeurOk newEnv true ∧ lastEnv oldEnv staleOps = newEnv ∧
    ∃ st st' res, (init oldEnv true).run staleOps = some st ∧ st.replan [9, 9] = .ok (st', res) ∧
      res.found = true ∧ res.path = [0, 2] ∧ (∀ c, ¬ PathCost (newEnv.succs 2) res.path c) := by
  refine ⟨tableEnv_ok _ _ _ (by decide), tableEnv_ok _ _ _ (by decide), zero_heurOk _ _, zero_heurOk _ _, rfl, ?_⟩
  have e : anaRun oldEnv true staleOps [9, 9] = some ⟨true, [0, 2], 5, (1000000000, 1), []⟩ := by decide +kernel
  obtain ⟨st, st', h1, h2⟩ := anaRun_some e
  refine ⟨st, st', _, h1, h2, rfl, rfl, ?_⟩
  intro c hc
  cases hc with
  | cons hm _ =>
    revert hm; simp [newEnv, tableEnv]

/-! ## C93: expired time limits, the bound that is never lowered, zero costs -/

def backOld : PEnv := tableEnv [(2, 0, 5)] hzero hzero
def backNew : PEnv := tableEnv [(2, 0, 20)] hzero hzero

/-- **C93a, refuted** "A replan whose time is already over returns no solution or a valid one": after
`costs_changed`, a backward search with no time for a single pass reports success with the cost 5 of before the
change, although every path now costs 20. -/
theorem expired_replan_stale :
    EnvOk backOld ∧ EnvOk backNew ∧
    ∃ st st' res, (init backOld false).run [.setGoal 0, .setStart 2, .replan [9, 9], .costsChanged backNew] = some st ∧
      st.replan [] = .ok (st', res) ∧ res.found = true ∧ res.path = [2, 0] ∧ res.cost = 5 ∧
      (∀ c, PathCost (backNew.succs 0) res.path c → c = 20) := by
  refine ⟨tableEnv_ok _ _ _ (by decide), tableEnv_ok _ _ _ (by decide), ?_⟩
  have e : anaRun backOld false [.setGoal 0, .setStart 2, .replan [9, 9], .costsChanged backNew] [] =
      some ⟨true, [2, 0], 5, (1000000000, 1), []⟩ := by decide +kernel
  obtain ⟨st, st', h1, h2⟩ := anaRun_some e
  refine ⟨st, st', _, h1, h2, rfl, rfl, rfl, ?_⟩
  intro c hc
  cases hc with
  | @cons _ _ k n _ hm hr =>
    have hm : k = 20 := by revert hm; simp [backNew, tableEnv]
    cases hr
    omega

/-- … and a forward search raises "g-values are non-decreasing". -/
theorem expired_replan_raises :
    ∃ st, (init oldEnv true).run [.setGoal 2, .setStart 0, .replan [9, 9], .costsChanged newEnv] = some st ∧
      st.replan [] = .error .nonDecreasing :=
  anaErr_some (by decide +kernel :
    anaErr oldEnv true [.setGoal 2, .setStart 0, .replan [9, 9], .costsChanged newEnv] [] = some .nonDecreasing)

/-- what is needed from the state after the first `replan` -/
def probe : Option (List Nat × List Bool × List (Option Nat)) :=
  match (init chainEnv true).run [.setGoal 2, .setStart 0] with
  | none => none
  | some st => match st.replan [9, 9] with
    | .error _ => none
    | .ok (st', r) => match st'.getSearchPath 3 0 2 with
      | .error _ => none
      | .ok (x, _) => some ([r.cost, r.eps.1, r.eps.2, st'.heap.size, st'.g 2, x.g 2, x.epsSat.1, x.epsSat.2],
          [r.found, st'.bReinit], [st'.start, st'.goal])

/-- **C93b, refuted** "The reported bound tells how good the solution is": the search may run to its end, with an
optimal solution and an empty OPEN list, and `get_solution_eps` still reports the initial INFINITECOST (and goes
on doing so in later calls). -/
theorem eps_not_lowered :
    EnvOk chainEnv ∧ HeurOk chainEnv true ∧ (∀ c, Walk (chainEnv.succs 2) 0 2 c → 2 ≤ c) ∧
    ∃ st st' st'' res, (init chainEnv true).run [.setGoal 2, .setStart 0] = some st ∧
      st.replan [9, 9] = .ok (st', res) ∧ res.found = true ∧ res.cost = 2 ∧ res.eps = (INFINITECOST, 1) ∧
      ∀ bs, ∃ res', st'.replan bs = .ok (st'', res') ∧ res'.cost = 2 ∧ res'.eps = (INFINITECOST, 1) := by
  refine ⟨tableEnv_ok _ _ _ (by decide), zero_heurOk _ _, ?_, ?_⟩
  · have key : ∀ {s c}, Walk (chainEnv.succs 2) 0 s c → s ≤ c := by
      intro s c w
      induction w with
      | nil => omega
      | @snoc b t n c _ hm ih =>
        simp only [chainEnv, tableEnv] at hm
        split at hm
        · cases hm
        · have := mem_tableSucc.mp hm
          simp at this
          omega
    exact fun c w => key w
  · have e : probe = some ([2, 1000000000, 1, 0, 2, 2, 1000000000, 1], [true, false], [some 0, some 2]) := by decide +kernel
    unfold probe at e
    cases h : (init chainEnv true).run [.setGoal 2, .setStart 0] with
    | none => rw [h] at e; cases e
    | some st =>
      rw [h] at e
      simp only at e
      cases h2 : st.replan [9, 9] with
      | error x => rw [h2] at e; cases e
      | ok q =>
        obtain ⟨st', r⟩ := q
        rw [h2] at e
        simp only at e
        cases h3 : st'.getSearchPath 3 0 2 with
        | error x => rw [h3] at e; cases e
        | ok q =>
          obtain ⟨st'', p⟩ := q
          rw [h3] at e
          simp only [Option.some.injEq, Prod.mk.injEq, List.cons.injEq, and_true] at e
          obtain ⟨⟨e1, e2, e3, e4, e5, e6, e7, e8⟩, ⟨e9, e10⟩, e11, e12⟩ := e
          refine ⟨st, st', st'', r, rfl, h2, e9, e1, Prod.ext e2 e3, fun bs => ⟨⟨true, p, st''.g 2, st''.epsSat, []⟩, ?_, e6,
            Prod.ext e7 e8⟩⟩
          unfold replan
          rw [e11, e12]
          simp only [e10, Bool.false_eq_true, if_false]
          rw [searchLoop_empty bs e4]
          simp only [e5]
          rw [if_neg (by decide), h3]

def zeroEnv : PEnv := tableEnv [(0, 1, 0)] hzero hzero

/-- **C93c, refuted** Zero-cost edges are legal inputs of the interface, and a goal reached over one makes `replan`
raise "g-values are non-decreasing" instead of returning the path. -/
theorem zero_cost_edge_raises :
    Walk (zeroEnv.succs 1) 0 1 0 ∧ HeurOk zeroEnv true ∧
    ∃ st, (init zeroEnv true).run [.setGoal 1, .setStart 0] = some st ∧ st.replan [9] = .error .nonDecreasing := by
  refine ⟨Walk.snoc (b := 0) (n := 0) (c := 0) .nil (by decide), zero_heurOk _ _, ?_⟩
  exact anaErr_some (by decide +kernel : anaErr zeroEnv true [.setGoal 1, .setStart 0] [9] = some .nonDecreasing)

end Sbpl.ANAProps
