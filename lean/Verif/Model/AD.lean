import Verif.Model.ARA
/-!
# `ADPlanner` (src/planners/adplanner.cpp)

`ADState` and `ADSearchStateSpace_t` (src/include/sbpl/planners/adplanner.h:60-130) have the same fields as their
ARA* counterparts, so the record `ARA` is used for the AD* planner too; its flag `bNew` is `bRebuildOpenList` here.
`InitializeSearchStateInfo`, `ReInitializeSearchStateInfo` (adplanner.cpp:191-244), `ComputeHeuristic` (166-188) and
`Reevaluatehvals` (668-678) are the same code as in araplanner.cpp and are modelled by `ARA.touch`, `ARA.heur` and
`ARA.reevalH`; likewise SetSearchStartState, set_goal, set_start dispatch as there.

Modelled: forward and backward search, ComputeKey, UpdateSetMembership, Recomputegval, over- and underconsistent
expansions, ComputePath, BuildNewOPENList, Reevaluatefvals, ReInitializeSearchStateSpace, Search, path extraction
with its 100000 step limit, set_start/set_goal, costs_changed, force_planning_from_scratch, replan.

Simplifications as in `Verif/Model/ARA.lean` (costs are natural numbers, eps values are fractions over `D`,
`fabs(a-b) < ERR_EPS` is equality, the clock is a number of loop checks, a state that was not created behaves like
one with stale information).  Not modelled: `costtobestnextstate` (never read), `update_preds_of_changededges` and
`update_succs_of_changededges` (1389-1401: the function `updateChanged` called directly instead of by costs_changed), freeing memory.
-/

namespace Sbpl
namespace AD
open ARA

/-- search predecessors: `GetPreds` in a forward search, `GetSuccs` in a backward search (Recomputegval,
adplanner.cpp:292-295) -/
def rev (st : ARA) (s : Nat) : List (Nat × Nat) :=
  if st.fwd then st.env.preds (st.goal.getD 0) s else st.env.succs (st.start.getD 0) s

/-- `ComputeKey` (adplanner.cpp:150-164) -/
def keyFor (st : ARA) (s : Nat) : CKey :=
  if st.v s ≥ st.g s then ⟨((st.g s + infl st.D st.eps (st.h s) : Nat) : Int), 1⟩
  else ⟨((st.v s + st.h s : Nat) : Int), 0⟩

/-- the part of `UpdateSetMembership` for an inconsistent state that was not expanded in this iteration
(adplanner.cpp:257-270) -/
def toOpen (st : ARA) (t : Nat) : Except PErr ARA :=
  if st.heap.idx t = 0 then
    if st.incons.elem t = none then
      match st.heap.insert t (keyFor st t) with
      | .error e => .error (.heap e)
      | .ok h => .ok { st with heap := h }
    else
      match st.incons.remove t with
      | .error e => .error (.list e)
      | .ok l =>
        match st.heap.insert t (keyFor st t) with
        | .error e => .error (.heap e)
        | .ok h => .ok { st with heap := h, incons := l }
  else
    match st.heap.update t (keyFor st t) with
    | .error e => .error (.heap e)
    | .ok h => .ok { st with heap := h }

/-- `UpdateSetMembership` (adplanner.cpp:253-283) -/
def setMembership (st : ARA) (t : Nat) : Except PErr ARA :=
  if st.v t ≠ st.g t then
    if st.iterC t ≠ st.iter then toOpen st t
    else if st.incons.elem t = none then
      match st.incons.insert t with
      | .error e => .error (.list e)
      | .ok l => .ok { st with incons := l }
    else .ok st
  else
    if st.heap.idx t ≠ 0 then
      match st.heap.delete t with
      | .error e => .error (.heap e)
      | .ok h => .ok { st with heap := h }
    else if st.incons.elem t ≠ none then
      match st.incons.remove t with
      | .error e => .error (.list e)
      | .ok l => .ok { st with incons := l }
    else .ok st

/-- loop of `Recomputegval` (adplanner.cpp:298-320): best value and back pointer so far; states that do not exist or
were not touched in this call are skipped -/
def bestOf (st : ARA) : List (Nat × Nat) → Nat × Option Nat → Nat × Option Nat
  | [], r => r
  | (u, c) :: es, r =>
    bestOf st es (if st.callA u = st.call ∧ r.1 > st.v u + c then (st.v u + c, some u) else r)

/-- assignment of `g` and of the back pointer of the search direction -/
def setGP (st : ARA) (t n : Nat) (p : Option Nat) : ARA :=
  { st with
    g := upd st.g t n
    par := if st.fwd then upd st.par t p else st.par
    next := if st.fwd then st.next else upd st.next t p }

/-- the back pointer of the search direction: `bestpredstate` or `bestnextstate` -/
def ptrOf (st : ARA) (t : Nat) : Option Nat := if st.fwd then st.par t else st.next t

/-- `Recomputegval` (adplanner.cpp:285-321); the back pointer is kept if nothing improves on INFINITECOST -/
def recompute (st : ARA) (t : Nat) : ARA :=
  let r := bestOf st (rev st t) (INFINITECOST, ptrOf st t)
  setGP st t r.1 r.2

/-- loop body of UpdatePredsofOverconsState / UpdateSuccsofOverconsState (adplanner.cpp:334-366, 380-398) -/
def overOne (st : ARA) (s t c : Nat) : Except PErr ARA :=
  let st1 := st.touch t
  if st1.g t > st1.v s + c then setMembership (setGP st1 t (st1.v s + c) (some s)) t else .ok st1

/-- UpdatePredsofOverconsState / UpdateSuccsofOverconsState (adplanner.cpp:324-399) -/
def overAll (s : Nat) : List (Nat × Nat) → ARA → Except PErr ARA
  | [], st => .ok st
  | (t, c) :: es, st =>
    match overOne st s t c with
    | .error e => .error e
    | .ok st1 => overAll s es st1

/-- loop body of UpdatePredsofUnderconsState / UpdateSuccsofUnderconsState (adplanner.cpp:412-433, 447-459) -/
def underOne (st : ARA) (s t : Nat) : Except PErr ARA :=
  let st1 := st.touch t
  if ptrOf st1 t = some s then setMembership (recompute st1 t) t else .ok st1

/-- UpdatePredsofUnderconsState / UpdateSuccsofUnderconsState (adplanner.cpp:402-460) -/
def underAll (s : Nat) : List (Nat × Nat) → ARA → Except PErr ARA
  | [], st => .ok st
  | (t, _) :: es, st =>
    match underOne st s t with
    | .error e => .error e
    | .ok st1 => underAll s es st1

/-- `goalkey > minkey || searchgoalstate->g > searchgoalstate->v` (adplanner.cpp:496, 591) -/
def wants (st : ARA) (gl : Nat) : Bool :=
  CKey.gtB (keyFor st gl) st.minKey || decide (st.g gl > st.v gl)

/-- the clock-independent part of the loop condition (adplanner.cpp:495-496) -/
def loopCond (st : ARA) (gl : Nat) : Bool :=
  !st.heap.isEmpty && decide (st.minKey.k0 < 1000000000) && wants st gl

/-- the part of the loop body after the state `s` was taken from OPEN (adplanner.cpp:529-568) -/
def expandState (st : ARA) (s : Nat) : Except PErr ARA :=
  if st.v s = st.g s then .error .consistentExpanded
  else if st.v s > st.g s then
    let st1 := { st with v := upd st.v s (st.g s), iterC := upd st.iterC s st.iter }
    overAll s (st1.nbr s) st1
  else
    match setMembership { st with v := upd st.v s INFINITECOST } s with
    | .error e => .error e
    | .ok st1 => underAll s (st1.nbr s) st1

/-- loop body of ComputePath (adplanner.cpp:501-574): the expanded state and the new state -/
def expand (st : ARA) : Except PErr (Nat × ARA) :=
  match st.heap.deleteMin with
  | .error e => .error (.heap e)
  | .ok (s, h) =>
    match expandState { st with heap := h } s with
    | .error e => .error e
    | .ok st2 => .ok (s, st2)

/-- loop of ComputePath (adplanner.cpp:495-579); returns the states expanded, in order -/
def computeLoop (gl : Nat) : Nat → ARA → Except PErr (List Nat × ARA)
  | 0, st => .ok ([], st)
  | budget + 1, st =>
    if loopCond st gl then
      match expand st with
      | .error e => .error e
      | .ok (s, st1) =>
        match computeLoop gl budget st1 with
        | .error e => .error e
        | .ok (tr, st2) => .ok (s :: tr, st2)
    else .ok ([], st)

/-- return code of ComputePath (adplanner.cpp:581-613) -/
def retCode (st : ARA) (gl : Nat) : Nat :=
  if st.g gl = INFINITECOST ∧ st.heap.isEmpty = true then 0
  else if st.heap.isEmpty = false ∧ wants st gl = true then 2
  else if st.g gl = INFINITECOST ∧ st.heap.isEmpty = false then 0
  else 1

/-- ComputePath (adplanner.cpp:470-620): new state, return code, expanded states -/
def computePath (st : ARA) (budget : Nat) : Except PErr (ARA × Nat × List Nat) :=
  match st.goal with
  | none => .error .noGoal
  | some gl =>
    match computeLoop gl budget (st.touch gl) with
    | .error e => .error e
    | .ok (tr, st1) => .ok (st1, retCode st1 gl, tr)

/-- the insertion into OPEN inside BuildNewOPENList (adplanner.cpp:637-640) -/
def putOpen (st : ARA) (s : Nat) : Except PErr (Heap CKey) :=
  if st.heap.idx s = 0 then
    match st.heap.insert s (keyFor st s) with
    | .error e => .error (.heap e)
    | .ok h => .ok h
  else
    match st.heap.update s (keyFor st s) with
    | .error e => .error (.heap e)
    | .ok h => .ok h

/-- loop of BuildNewOPENList (adplanner.cpp:630-643); `fuel` = number of INCONS members + 1 -/
def buildLoop : Nat → ARA → Except PErr ARA
  | 0, st => .ok st
  | fuel + 1, st =>
    match st.incons.getFirst with
    | .error e => .error (.list e)
    | .ok none => .ok st
    | .ok (some s) =>
      match putOpen st s with
      | .error e => .error e
      | .ok h =>
        match st.incons.remove s with
        | .error e => .error (.list e)
        | .ok l => buildLoop fuel { st with heap := h, incons := l }

/-- BuildNewOPENList (adplanner.cpp:622-646) -/
def buildNewOpen (st : ARA) : Except PErr ARA :=
  match buildLoop (st.incons.size + 1) st with
  | .error e => .error e
  | .ok st1 => .ok { st1 with bNew := false }

/-- re-keying loop of Reevaluatefvals (adplanner.cpp:659-662) over slots `1..n` -/
def rekey (st : ARA) (arr : Nat → HElem CKey) : Nat → (Nat → HElem CKey)
  | 0 => arr
  | n + 1 =>
    let a := rekey st arr n
    upd a (n + 1) ⟨(a (n + 1)).st, keyFor st (a (n + 1)).st⟩

/-- Reevaluatefvals (adplanner.cpp:648-667) -/
def reevalF (st : ARA) : ARA :=
  { st with
    heap := ({ st.heap with arr := rekey st st.heap.arr st.heap.size } : Heap CKey).makeHeap
    bReeval := false }

/-- insertion of the start state into OPEN and reset of the flags (adplanner.cpp:765-771) -/
def openStart (st : ARA) (s0 : Nat) : Except PErr ARA :=
  match st.heap.insert s0 (keyFor st s0) with
  | .error e => .error (.heap e)
  | .ok h => .ok { st with heap := h, bReinit := false, bReeval := false, bNew := false }

/-- body of ReInitializeSearchStateSpace (adplanner.cpp:737-772) with start state `s0`; the goal is not re-initialised -/
def reinitFrom (st : ARA) (s0 : Nat) : Except PErr ARA :=
  match st.incons.makeEmpty with
  | .error e => .error (.list e)
  | .ok l =>
    let st1 := { st with
      call := st.call + 1, iter := 0, heap := st.heap.makeEmpty, incons := l, eps := st.initEps, epsSat := none }
    let st2 := st1.touch s0
    openStart { st2 with g := upd st2.g s0 0 } s0

/-- ReInitializeSearchStateSpace (adplanner.cpp:735-772) -/
def reinitSpace (st : ARA) : Except PErr ARA :=
  match st.start with
  | none => .error .noStart
  | some s0 => reinitFrom st s0

/-- "it will be a new search iteration" (adplanner.cpp:1137) -/
def firstIter (st : ARA) : ARA := if st.iter = 0 then { st with iter := 1 } else st

/-- "decrease eps for all subsequent iterations" (adplanner.cpp:1139-1148) -/
def decrease (st : ARA) : ARA :=
  if st.epsSat = some st.eps ∧ st.first = false then
    { st with
      eps := if st.eps - st.decEps < st.finalEps then st.finalEps else st.eps - st.decEps
      bReeval := true, bNew := true, iter := st.iter + 1 }
  else st

/-- one pass of Search's loop (adplanner.cpp:1136-1159) -/
def searchIter (st : ARA) (budget : Nat) : Except PErr (ARA × Nat × List Nat) :=
  let st0 := decrease (firstIter st)
  match (if st0.bNew then buildNewOpen st0 else .ok st0) with
  | .error e => .error e
  | .ok st1 =>
    let st2 := if st1.bReeval then reevalF st1 else st1
    match computePath st2 budget with
    | .error e => .error e
    | .ok (st3, ret, tr) => .ok (if ret = 1 then { st3 with epsSat := some st3.eps } else st3, ret, tr)

/-- main loop of Search (adplanner.cpp:1126-1192); second component: the expansion sequence of every ComputePath call -/
def searchLoop (gl : Nat) : List Nat → ARA → Except PErr (ARA × List (List Nat))
  | [], st => .ok (st, [])
  | b :: bs, st =>
    if st.notDone then
      match searchIter st b with
      | .error e => .error e
      | .ok (st1, _, tr) =>
        if st1.first then .ok (st1, [tr])
        else if st1.g gl = INFINITECOST then .ok (st1, [tr])
        else
          match searchLoop gl bs st1 with
          | .error e => .error e
          | .ok (st2, trs) => .ok (st2, tr :: trs)
    else .ok (st, [])

/-- `max_steps` (adplanner.cpp:844, 1031) -/
def maxSteps : Nat := 100000

/-- ReconstructPath (adplanner.cpp:835-883) from state `s` with `steps` steps left; `none`: the return value is not 1
(g of a state on the path is INFINITECOST, or the step limit was reached) -/
def reconstruct (s0 : Nat) : Nat → ARA → Nat → Except PErr (Option ARA)
  | 0, st, s => if s = s0 then .ok (some st) else .ok none
  | steps + 1, st, s =>
    if s = s0 then .ok (some st)
    else if st.g s = INFINITECOST then .ok none
    else
      match st.par s with
      | none => .error .predNull
      | some p =>
        let st1 := { st with next := upd st.next p (some s) }
        if st1.v p ≥ st1.g s then .error .nonDecreasing
        else reconstruct s0 steps st1 p

/-- path-following loop of GetSearchPath (adplanner.cpp:1030-1084); `none`: the end was not reached -/
def follow (gl envGoal : Nat) : Nat → ARA → Nat → Except PErr (Option (List Nat × Nat))
  | 0, _, s => if s = gl then .ok (some ([s], 0)) else .ok none
  | steps + 1, st, s =>
    if s = gl then .ok (some ([s], 0))
    else
      match st.next s with
      | none => .ok none
      | some t =>
        if st.g s = INFINITECOST then .ok none
        else if st.v s < st.g s then .error .underconsistentOnPath
        else
          match follow gl envGoal steps st t with
          | .error e => .error e
          | .ok none => .ok none
          | .ok (some (p, c)) => .ok (some (s :: p, actionCost (st.env.succs envGoal s) t + c))

/-- GetSearchPath (adplanner.cpp:992-1089); an unsuccessful extraction returns an empty path -/
def getSearchPath (st : ARA) (s0 gl : Nat) : Except PErr (ARA × List Nat) :=
  if st.fwd then
    match reconstruct s0 maxSteps st gl with
    | .error e => .error e
    | .ok none => .ok (st, [])
    | .ok (some st1) =>
      match follow gl gl maxSteps st1 s0 with
      | .error e => .error e
      | .ok none => .ok (st1, [])
      | .ok (some (p, _)) => .ok (st1, p)
  else
    match follow s0 s0 maxSteps st gl with
    | .error e => .error e
    | .ok none => .ok (st, [])
    | .ok (some (p, _)) => .ok (st, p)

/-- prologue of Search (adplanner.cpp:1104-1114) -/
def searchProlog (st : ARA) (gl : Nat) : Except PErr ARA :=
  let st1 := if st.bReeval then st.reevalH gl else st
  if st1.bReinit then reinitSpace st1 else .ok st1

/-- Search + replan (adplanner.cpp:1091-1226, 1298-1345): success requires a finite goal value and a computed bound -/
def replan (st : ARA) (budgets : List Nat) : Except PErr (ARA × Result) :=
  match st.start, st.goal with
  | none, _ => .error .noStart
  | some _, none => .error .noGoal
  | some s0, some gl =>
    match searchProlog st gl with
    | .error e => .error e
    | .ok st1 =>
      match searchLoop gl budgets st1 with
      | .error e => .error e
      | .ok (st2, trs) =>
        if st2.g gl = INFINITECOST ∨ st2.epsSat = none then
          .ok (st2, ⟨false, [], st2.g gl, st2.epsSat, trs⟩)
        else
          match getSearchPath st2 s0 gl with
          | .error e => .error e
          | .ok (st3, p) => .ok (st3, ⟨true, p, st2.g gl, st3.epsSat, trs⟩)

/-- SetSearchGoalState (adplanner.cpp:798-821) -/
def setSearchGoal (st : ARA) (s : Nat) : ARA :=
  if st.goal = some s then st
  else { st with
    goal := some s, epsSat := none, eps := st.initEps, iter := st.iter + 1, bNew := true, bReeval := true }

/-- set_goal (adplanner.cpp:1347-1366); SetSearchStartState (823-833) is the same code as in araplanner.cpp -/
def setGoal (st : ARA) (s : Nat) : ARA := if st.fwd then setSearchGoal st s else st.setSearchStart s
/-- set_start (adplanner.cpp:1368-1387) -/
def setStart (st : ARA) (s : Nat) : ARA := if st.fwd then st.setSearchStart s else setSearchGoal st s

/-- loop of Update_SearchSuccs_of_ChangedEdges (adplanner.cpp:1246-1278); the number counts the updated states -/
def changeLoop : List Nat → ARA → Except PErr (ARA × Nat)
  | [], st => .ok (st, 0)
  | s :: ss, st =>
    if st.start ≠ some s ∧ st.callA s = st.call then
      match setMembership (recompute st s) s with
      | .error e => .error e
      | .ok st1 =>
        match changeLoop ss st1 with
        | .error e => .error e
        | .ok (st2, n) => .ok (st2, n + 1)
    else changeLoop ss st

/-- Update_SearchSuccs_of_ChangedEdges (adplanner.cpp:1228-1294); `total` is the number of states of the environment.
The number of updated states is also printed ("states really affected"). -/
def updateChanged (st : ARA) (l : List Nat) (total : Nat) : Except PErr (ARA × Nat) :=
  let st1 := { st with
    bReinit := if l.length > total / 10 then true else st.bReinit
    iter := st.iter + 1, bNew := true, bReeval := true }
  match changeLoop l st1 with
  | .error e => .error e
  | .ok (st2, n) => .ok (if n > 0 then { st2 with eps := st2.initEps, epsSat := none } else st2, n)

/-- costs_changed (adplanner.cpp:1447-1459), called after the environment has become `env`; `succL` / `predL` are
`getSuccessors()` / `getPredecessors()` of the StateChangeQuery.  Also returns the number of updated states. -/
def costsChanged (st : ARA) (env : PEnv) (succL predL : List Nat) (total : Nat) : Except PErr (ARA × Nat) :=
  let st1 := { st with env := env, bReeval := true }
  if st.bReinit = true ∨ st.iter = 0 then .ok (st1, 0)
  else updateChanged st1 (if st.fwd then succL else predL) total

/-- One call of the planner interface. -/
inductive Op where
  | setStart (s : Nat)
  | setGoal (s : Nat)
  | costsChanged (env : PEnv) (succL predL : List Nat) (total : Nat)
  | forceScratch
  | setParams (initEps finalEps decEps : Nat) (first : Bool)
  | replan (budgets : List Nat)

/-- Effect of a call; an exception leaves the planner unusable (`none`). -/
def step (st : ARA) : Op → Option ARA
  | .setStart s => some (setStart st s)
  | .setGoal s => some (setGoal st s)
  | .costsChanged env sl pl n =>
    match costsChanged st env sl pl n with
    | .ok (st1, _) => some st1
    | .error _ => none
  | .forceScratch => some st.forceScratch
  | .setParams a b c d => some (st.setParams a b c d)
  | .replan bs =>
    match replan st bs with
    | .ok (st1, _) => some st1
    | .error _ => none

/-- A history of calls. -/
def run (st : ARA) : List Op → Option ARA
  | [] => some st
  | op :: ops =>
    match step st op with
    | none => none
    | some st1 => run st1 ops

/-- constructor + InitializeSearchStateSpace (adplanner.cpp:45-95, 775-796): the flag bRebuildOpenList starts false -/
def init (env : PEnv) (fwd : Bool) (D initEps finalEps decEps : Nat) (first : Bool) : ARA :=
  { ARA.init env fwd D initEps finalEps decEps first with bNew := false }

end AD
end Sbpl
