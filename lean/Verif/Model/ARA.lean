import Verif.Model.Heap
import Verif.Model.Key
import Verif.Model.CList
/-!
# `ARAPlanner` (src/planners/araplanner.cpp)

Modelled: forward and backward search, per-call lazy re-initialisation of state information, the OPEN
heap (the concrete heap model), the INCONS list (the concrete list model), ImprovePath,
BuildNewOPENList, Reevaluatefvals/hvals, ReInitializeSearchStateSpace, Search, path extraction,
set_start/set_goal, costs_changed, force_planning_from_scratch, replan.

Simplifications:
* `unsigned`/`int` costs are `Nat` (no overflow), `double` eps values are fractions `n / D` with one
  common denominator `D` and exact arithmetic; the comparison `fabs(a-b) < ERR_EPS` is equality.
* wall-clock time: the clock conditions of ImprovePath's loop are true for a certain number of checks
  and then false; that number is the argument `budget`.  Likewise the clock conditions of Search's loop
  are true for `budgets.length` checks.
* the `searchMDP.StateArray`/`StateID2IndexMapping` indirection (GetState/CreateState) is not modelled: a
  state that was not created yet behaves like a state whose information is stale.
* statistics and printing are not modelled.
-/

namespace Sbpl

/-- What the planner sees of a `DiscreteSpaceInformation`; the first argument is the goal (or start)
currently set in the environment.
`succs`/`preds`: `GetSuccs`/`GetPreds` (id, cost) in the order returned;
`hGoal`/`hStart`: `GetGoalHeuristic`/`GetStartHeuristic`
(src/include/sbpl/discrete_space_information/environment.h). -/
structure PEnv where
  succs : Nat → Nat → List (Nat × Nat)
  preds : Nat → Nat → List (Nat × Nat)
  hGoal : Nat → Nat → Nat
  hStart : Nat → Nat → Nat

/-- Exceptions / undefined behaviour of the planner. -/
inductive PErr where
  | heap (e : HeapErr)
  | list (e : ListErr)
  | noGoal | noStart
  | predNull | nonDecreasing | noTermination
  | consistentExpanded | underconsistentOnPath
deriving DecidableEq, Repr

/-- `ARAState` fields (src/include/sbpl/planners/araplanner.h:70-104) as functions of the state ID,
`ARASearchStateSpace_t` (araplanner.h:107-128) and the planner's parameters (araplanner.h:270-300).
`par` is `bestpredstate`, `next` is `bestnextstate`. -/
structure ARA where
  env : PEnv
  fwd : Bool
  D : Nat
  g : Nat → Nat
  v : Nat → Nat
  h : Nat → Nat
  iterC : Nat → Nat
  callA : Nat → Nat
  par : Nat → Option Nat
  next : Nat → Option Nat
  heap : Heap CKey
  incons : CList
  call : Nat
  iter : Nat
  start : Option Nat
  goal : Option Nat
  eps : Nat
  epsSat : Option Nat
  bReeval : Bool
  bReinit : Bool
  bNew : Bool
  initEps : Nat
  finalEps : Nat
  decEps : Nat
  first : Bool

namespace ARA

/-- Expansion list: `GetSuccs` (UpdateSuccs, araplanner.cpp:299) or `GetPreds` (UpdatePreds,
araplanner.cpp:258).  In a forward search the search goal is the environment's goal, in a backward
search the search start is. -/
def nbr (st : ARA) (s : Nat) : List (Nat × Nat) :=
  if st.fwd then st.env.succs (st.goal.getD 0) s else st.env.preds (st.start.getD 0) s

/-- `ComputeHeuristic` (araplanner.cpp:154-180) with the search goal `gl`. -/
def heur (st : ARA) (gl s : Nat) : Nat :=
  if st.fwd then st.env.hGoal gl s else st.env.hStart gl s

/-- `InitializeSearchStateInfo` / `ReInitializeSearchStateInfo` (araplanner.cpp:182-242). -/
def reinitState (st : ARA) (s : Nat) : ARA :=
  { st with
    g := upd st.g s INFINITECOST
    v := upd st.v s INFINITECOST
    iterC := upd st.iterC s 0
    callA := upd st.callA s st.call
    next := upd st.next s none
    par := upd st.par s none
    heap := { st.heap with idx := upd st.heap.idx s 0 }
    incons := { st.incons with elem := upd st.incons.elem s none }
    h := upd st.h s (match st.goal with | some gl => st.heur gl s | none => 0) }

/-- `if (callnumberaccessed != callnumber) ReInitializeSearchStateInfo` (e.g. araplanner.cpp:265-267). -/
def touch (st : ARA) (s : Nat) : ARA := if st.callA s ≠ st.call then st.reinitState s else st

/-- `(int)(eps * h)` with `eps = e / D`. -/
def infl (D e h : Nat) : Nat := e * h / D

/-- the OPEN key of a state: `key[0] = g + (int)(eps*h)`, `key[1] = 0` (araplanner.cpp:278, 321) -/
def keyFor (st : ARA) (s : Nat) : CKey := ⟨((st.g s + infl st.D st.eps (st.h s) : Nat) : Int), 0⟩

/-- Put an improved state into OPEN, or into INCONS if it was already expanded in this iteration
(araplanner.cpp:276-287 and 317-333). -/
def reinsert (st : ARA) (t : Nat) : Except PErr ARA :=
  if st.iterC t ≠ st.iter then
    if st.heap.idx t ≠ 0 then
      match st.heap.update t (st.keyFor t) with
      | .ok h => .ok { st with heap := h }
      | .error e => .error (.heap e)
    else
      match st.heap.insert t (st.keyFor t) with
      | .ok h => .ok { st with heap := h }
      | .error e => .error (.heap e)
  else if st.incons.elem t = none then
    match st.incons.insert t with
    | .ok l => .ok { st with incons := l }
    | .error e => .error (.list e)
  else .ok st

/-- Loop body of UpdateSuccs / UpdatePreds for one edge (araplanner.cpp:262-288, 302-334). -/
def updateOne (st : ARA) (s t c : Nat) : Except PErr ARA :=
  let st1 := st.touch t
  if st1.g t > st1.v s + c then
    let st2 := { st1 with
      g := upd st1.g t (st1.v s + c)
      par := if st.fwd then upd st1.par t (some s) else st1.par
      next := if st.fwd then st1.next else upd st1.next t (some s) }
    st2.reinsert t
  else .ok st1

/-- UpdateSuccs / UpdatePreds (araplanner.cpp:250-335). -/
def updateAll (st : ARA) (s : Nat) : List (Nat × Nat) → Except PErr ARA
  | [] => .ok st
  | (t, c) :: es =>
    match st.updateOne s t c with
    | .error e => .error e
    | .ok st1 => updateAll st1 s es

/-- `goalkey` (araplanner.cpp:369, 420-424). -/
def goalKey (st : ARA) (gl : Nat) : CKey := ⟨(st.g gl : Int), 0⟩

/-- `getminkeyheap()` (araplanner.cpp:373, 417). -/
def minKey (st : ARA) : CKey := st.heap.getMinKey CKey.infinity

/-- the clock-independent part of the loop condition (araplanner.cpp:375) -/
def loopCond (st : ARA) (gl : Nat) : Bool :=
  !st.heap.isEmpty && decide (st.minKey.k0 < 1000000000) && CKey.gtB (st.goalKey gl) st.minKey

/-- loop body of ImprovePath (araplanner.cpp:380-414): returns the expanded state -/
def expand (st : ARA) : Except PErr (Nat × ARA) :=
  match st.heap.deleteMin with
  | .error e => .error (.heap e)
  | .ok (s, h) =>
    let st1 := { st with heap := h, v := upd st.v s (st.g s), iterC := upd st.iterC s st.iter }
    match st1.updateAll s (st1.nbr s) with
    | .error e => .error e
    | .ok st2 => .ok (s, st2)

/-- loop of ImprovePath (araplanner.cpp:375-429); returns the states expanded, in order -/
def improveLoop (gl : Nat) : Nat → ARA → Except PErr (List Nat × ARA)
  | 0, st => .ok ([], st)
  | budget + 1, st =>
    if st.loopCond gl then
      match st.expand with
      | .error e => .error e
      | .ok (s, st1) =>
        match improveLoop gl budget st1 with
        | .error e => .error e
        | .ok (tr, st2) => .ok (s :: tr, st2)
    else .ok ([], st)

/-- return code of ImprovePath (araplanner.cpp:431-450) -/
def retCode (st : ARA) (gl : Nat) : Nat :=
  if st.g gl = INFINITECOST ∧ st.heap.isEmpty = true then 0
  else if st.heap.isEmpty = false ∧ CKey.gtB (st.goalKey gl) st.minKey = true then 2
  else if st.g gl = INFINITECOST ∧ st.heap.isEmpty = false then 0
  else 1

/-- ImprovePath (araplanner.cpp:346-457): new state, return code, expanded states -/
def improvePath (st : ARA) (budget : Nat) : Except PErr (ARA × Nat × List Nat) :=
  match st.goal with
  | none => .error .noGoal
  | some gl =>
    match improveLoop gl budget (st.touch gl) with
    | .error e => .error e
    | .ok (tr, st1) => .ok (st1, st1.retCode gl, tr)

/-- loop of BuildNewOPENList (araplanner.cpp:466-486); `fuel` = number of INCONS members + 1 -/
def buildLoop : Nat → ARA → Except PErr ARA
  | 0, st => .ok st
  | fuel + 1, st =>
    match st.incons.getFirst with
    | .error e => .error (.list e)
    | .ok none => .ok st
    | .ok (some s) =>
      match st.heap.insert s (st.keyFor s) with
      | .error e => .error (.heap e)
      | .ok h =>
        match st.incons.remove s with
        | .error e => .error (.list e)
        | .ok l => buildLoop fuel { st with heap := h, incons := l }

/-- BuildNewOPENList (araplanner.cpp:466-486). -/
def buildNewOpen (st : ARA) : Except PErr ARA := buildLoop (st.incons.size + 1) st

/-- re-keying loop of Reevaluatefvals (araplanner.cpp:495-499) over slots `1..n` -/
def rekey (st : ARA) (arr : Nat → HElem CKey) : Nat → (Nat → HElem CKey)
  | 0 => arr
  | n + 1 =>
    let a := rekey st arr n
    upd a (n + 1) ⟨(a (n + 1)).st,
      ⟨((st.g (a (n + 1)).st + infl st.D st.eps (st.h (a (n + 1)).st) : Nat) : Int), (a (n + 1)).key.k1⟩⟩

/-- Reevaluatefvals (araplanner.cpp:488-503). -/
def reevalF (st : ARA) : ARA :=
  { st with
    heap := ({ st.heap with arr := st.rekey st.heap.arr st.heap.size } : Heap CKey).makeHeap
    bReeval := false }

/-- Reevaluatehvals (araplanner.cpp:505-513); re-evaluating states that were not created has no
observable effect. -/
def reevalH (st : ARA) (gl : Nat) : ARA := { st with h := fun s => st.heur gl s }

/-- ReInitializeSearchStateSpace (araplanner.cpp:575-619) with search start `s0` and goal `gl`. -/
def reinitFrom (st : ARA) (s0 gl : Nat) : Except PErr ARA :=
  match st.incons.makeEmpty with
  | .error e => .error (.list e)
  | .ok l =>
    let st1 := { st with
      call := st.call + 1, iter := 0, bNew := true, heap := st.heap.makeEmpty, incons := l,
      eps := st.initEps, epsSat := none }
    let st2 := st1.touch s0
    let st3 := { st2 with g := upd st2.g s0 0 }
    let st4 := st3.touch gl
    match st4.heap.insert s0 ⟨(infl st4.D st4.eps (st4.h s0) : Nat), 0⟩ with
    | .error e => .error (.heap e)
    | .ok h => .ok { st4 with heap := h, bReinit := false, bReeval := false }

/-- ReInitializeSearchStateSpace (araplanner.cpp:575-619); a missing start or goal is a null dereference. -/
def reinitSpace (st : ARA) : Except PErr ARA :=
  match st.start, st.goal with
  | none, _ => .error .noStart
  | some _, none => .error .noGoal
  | some s0, some gl => st.reinitFrom s0 gl

/-- `eps_satisfied > final_epsilon` (araplanner.cpp:930) -/
def notDone (st : ARA) : Bool :=
  match st.epsSat with
  | none => true
  | some e => decide (e > st.finalEps)

/-- "decrease eps for all subsequent iterations" (araplanner.cpp:938-949) -/
def decrease (st : ARA) : ARA :=
  if st.epsSat = some st.eps ∧ st.first = false then
    { st with
      eps := if st.eps - st.decEps < st.finalEps then st.finalEps else st.eps - st.decEps
      bReeval := true, bNew := true }
  else st

/-- "new search iteration" (araplanner.cpp:951-955) -/
def newIteration (st : ARA) : Except PErr ARA :=
  if st.bNew then buildNewOpen { st with iter := st.iter + 1, bNew := false } else .ok st

/-- one pass of Search's loop (araplanner.cpp:936-965); result: new state, return code and the states
expanded (in order; observable as the sequence of GetSuccs/GetPreds calls) -/
def searchIter (st : ARA) (budget : Nat) : Except PErr (ARA × Nat × List Nat) :=
  match st.decrease.newIteration with
  | .error e => .error e
  | .ok st1 =>
    let st2 := if st1.bReeval then st1.reevalF else st1
    match st2.improvePath budget with
    | .error e => .error e
    | .ok (st3, ret, tr) =>
      .ok (if ret = 1 then { st3 with epsSat := some st3.eps } else st3, ret, tr)

/-- main loop of Search (araplanner.cpp:929-1006); second component: the expansion sequence of every
ImprovePath call -/
def searchLoop (gl : Nat) : List Nat → ARA → Except PErr (ARA × List (List Nat))
  | [], st => .ok (st, [])
  | b :: bs, st =>
    if st.notDone then
      match st.searchIter b with
      | .error e => .error e
      | .ok (st1, _, tr) =>
        if st1.first then .ok (st1, [tr])
        else if st1.g gl = INFINITECOST then .ok (st1, [tr])
        else
          match searchLoop gl bs st1 with
          | .error e => .error e
          | .ok (st2, trs) => .ok (st2, tr :: trs)
    else .ok (st, [])

/-- ReconstructPath (araplanner.cpp:677-724) from state `s`; `fuel` bounds the number of steps.
`.ok none` is the return value -1. -/
def reconstruct (s0 : Nat) : Nat → ARA → Nat → Except PErr (Option ARA)
  | 0, _, _ => .error .noTermination
  | fuel + 1, st, s =>
    if s = s0 then .ok (some st)
    else if st.g s = INFINITECOST then .ok none
    else
      match st.par s with
      | none => .error .predNull
      | some p =>
        let st1 := { st with next := upd st.next p (some s) }
        if st1.v p ≥ st1.g s then .error .nonDecreasing
        else reconstruct s0 fuel st1 p

/-- cheapest action to the next state, INFINITECOST if none (araplanner.cpp:857-863) -/
def actionCost (es : List (Nat × Nat)) (t : Nat) : Nat :=
  es.foldl (fun a e => if e.1 = t ∧ e.2 < a then e.2 else a) INFINITECOST

/-- path-following loop of GetSearchPath (araplanner.cpp:841-890): path and accumulated `solcost` -/
def follow (gl envGoal : Nat) : Nat → ARA → Nat → Except PErr (List Nat × Nat)
  | 0, _, _ => .error .noTermination
  | fuel + 1, st, s =>
    if s = gl then .ok ([s], 0)
    else
      match st.next s with
      | none => .ok ([s], 0)
      | some t =>
        if st.g s = INFINITECOST then .ok ([s], 0)
        else
          match follow gl envGoal fuel st t with
          | .error e => .error e
          | .ok (p, c) => .ok (s :: p, actionCost (st.env.succs envGoal s) t + c)

/-- GetSearchPath (araplanner.cpp:809-893).  The loops are run with `fuel` steps; running out of it is
the outcome `noTermination`. -/
def getSearchPath (st : ARA) (fuel : Nat) (s0 gl : Nat) : Except PErr (ARA × List Nat × Nat) :=
  if st.fwd then
    match reconstruct s0 fuel st gl with
    | .error e => .error e
    | .ok r =>
      let st1 := r.getD st
      match follow gl gl fuel st1 s0 with
      | .error e => .error e
      | .ok (p, c) => .ok (st1, p, c)
  else
    match follow s0 s0 fuel st gl with
    | .error e => .error e
    | .ok (p, c) => .ok (st, p, c)

/-- result of a replan call; `traces` are the expansion sequences of its ImprovePath calls -/
structure Result where
  found : Bool
  path : List Nat
  cost : Nat
  finalEps : Option Nat
  traces : List (List Nat)
deriving DecidableEq, Repr

/-- prologue of Search (araplanner.cpp:907-920) -/
def searchProlog (st : ARA) (gl : Nat) : Except PErr ARA :=
  let st1 := if st.bReeval then st.reevalH gl else st
  if st1.bReinit then st1.reinitSpace else .ok st1

/-- Search + replan (araplanner.cpp:895-1089). -/
def replan (st : ARA) (budgets : List Nat) : Except PErr (ARA × Result) :=
  match st.start, st.goal with
  | none, _ => .error .noStart
  | some _, none => .error .noGoal
  | some s0, some gl =>
    match st.searchProlog gl with
    | .error e => .error e
    | .ok st1 =>
      match searchLoop gl budgets st1 with
      | .error e => .error e
      | .ok (st2, trs) =>
        if st2.g gl = INFINITECOST then
          .ok (st2, ⟨false, [], st2.g gl, st2.epsSat, trs⟩)
        else
          match st2.getSearchPath (st2.g gl + 1) s0 gl with
          | .error e => .error e
          | .ok (st3, p, _) => .ok (st3, ⟨true, p, st3.g gl, st3.epsSat, trs⟩)

/-- SetSearchGoalState (araplanner.cpp:644-663). -/
def setSearchGoal (st : ARA) (s : Nat) : ARA :=
  if st.goal = some s then st
  else { st with goal := some s, epsSat := none, bNew := true, eps := st.initEps, bReeval := true }

/-- SetSearchStartState (araplanner.cpp:665-675). -/
def setSearchStart (st : ARA) (s : Nat) : ARA :=
  if st.start = some s then st else { st with start := some s, bReinit := true }

/-- set_goal (araplanner.cpp:1091-1110). -/
def setGoal (st : ARA) (s : Nat) : ARA := if st.fwd then st.setSearchGoal s else st.setSearchStart s
/-- set_start (araplanner.cpp:1112-1131). -/
def setStart (st : ARA) (s : Nat) : ARA := if st.fwd then st.setSearchStart s else st.setSearchGoal s

/-- costs_changed (araplanner.cpp:1133-1143), called after the environment has become `env`. -/
def costsChanged (st : ARA) (env : PEnv) : ARA := { st with env := env, bReeval := true, bReinit := true }

/-- force_planning_from_scratch (araplanner.cpp:1145-1152). -/
def forceScratch (st : ARA) : ARA := { st with bReinit := true }

/-- constructor + InitializeSearchStateSpace (araplanner.cpp:45-88, 621-642). -/
def init (env : PEnv) (fwd : Bool) (D initEps finalEps decEps : Nat) (first : Bool) : ARA :=
  { env, fwd, D, g := fun _ => INFINITECOST, v := fun _ => INFINITECOST, h := fun _ => 0,
    iterC := fun _ => 0, callA := fun _ => 0, par := fun _ => none, next := fun _ => none,
    heap := Heap.mk0 Heap.HEAPSIZE_INIT ⟨0, ⟨0, 0⟩⟩, incons := CList.mk0, call := 0, iter := 0,
    start := none, goal := none, eps := initEps, epsSat := none, bReeval := false, bReinit := true,
    bNew := true, initEps, finalEps, decEps, first }

/-- replan(ReplanParams) (araplanner.cpp:1046-1056): the parameters set before searching -/
def setParams (st : ARA) (initEps finalEps decEps : Nat) (first : Bool) : ARA :=
  { st with initEps := initEps, finalEps := finalEps, decEps := decEps, first := first }

/-- One call of the planner interface. -/
inductive Op where
  | setStart (s : Nat)
  | setGoal (s : Nat)
  | costsChanged (env : PEnv)
  | forceScratch
  | setParams (initEps finalEps decEps : Nat) (first : Bool)
  | replan (budgets : List Nat)

/-- Effect of a call; an exception leaves the planner unusable (`none`). -/
def step (st : ARA) : Op → Option ARA
  | .setStart s => some (st.setStart s)
  | .setGoal s => some (st.setGoal s)
  | .costsChanged env => some (st.costsChanged env)
  | .forceScratch => some st.forceScratch
  | .setParams a b c d => some (st.setParams a b c d)
  | .replan bs =>
    match st.replan bs with
    | .ok (st1, _) => some st1
    | .error _ => none

/-- A history of calls. -/
def run (st : ARA) : List Op → Option ARA
  | [] => some st
  | op :: ops =>
    match st.step op with
    | none => none
    | some st1 => run st1 ops

end ARA
end Sbpl
