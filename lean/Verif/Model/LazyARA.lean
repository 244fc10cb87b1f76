import Verif.Model.ARA
/-!
# `LazyARAPlanner` (src/planners/lazyARA.cpp)

Modelled: GetState, ExpandState, EvaluateState, the lists of unevaluated edges, the OPEN heap (the concrete heap model),
INCONS, ImprovePath, GetSearchPath, Search, prepareNextSearchIteration, set_start/set_goal, replan, the clock, the
16-bit counters `replan_number`, `search_iteration` and `iteration_closed`.

Simplifications:
* `unsigned`/`int` costs are `Nat` (no overflow), eps values are fractions over one denominator, as in Model/ARA.
* the clock: an ImprovePath call may test the clock a certain number of times before it answers "out of time"; that
  number is the argument `budget`.  Once out of time, always out of time.
* `std::priority_queue<LazyListElement>` is an argument (`LQueue`): the container's contents with a push and a pop
  operation, both of which may consult the current comparison of elements.  `stdQueue` (below) is libstdc++'s binary heap.
* the vector `states` (GetState, lazyARA.cpp:69-80): a state that was not created yet behaves like one with
  `replan_number = (unsigned short)-1`.
* statistics and printing are not modelled.
-/

namespace Sbpl

/-- What the planner sees of a `DiscreteSpaceInformation`: GetLazySuccs / GetLazyPreds (id, cost, isTrueCost) in the order
returned, GetTrueCost, GetGoalHeuristic / GetStartHeuristic, and the values these two return before
EnsureHeuristicsUpdated is called (src/include/sbpl/discrete_space_information/environment.h). -/
structure LEnv where
  succs : Nat → List (Nat × Nat × Bool)
  preds : Nat → List (Nat × Nat × Bool)
  trueCost : Nat → Nat → Int
  hGoal : Nat → Nat
  hStart : Nat → Nat
  hGoalPre : Nat → Nat
  hStartPre : Nat → Nat

/-- `LazyListElement` (src/include/sbpl/planners/lazyARA.h:55-73) -/
structure LazyElem where
  par : Nat
  cost : Nat
  isTrue : Bool
deriving DecidableEq, Repr

/-- A priority queue of list elements.  The first argument of both operations gives the value `parent->v + edgeCost` of
every element at the time of the call (`operator<`, lazyARA.h:66-69: smaller values come first). -/
structure LQueue where
  push : (LazyElem → Nat) → LazyElem → List LazyElem → List LazyElem
  pop : (LazyElem → Nat) → List LazyElem → Option (LazyElem × List LazyElem)

/-- `LazyARAState` fields (lazyARA.h:38-53) as functions of the state ID, and the planner's members (lazyARA.h:145-165).
`par` is `best_parent`, `epar` is `expanded_best_parent`. -/
structure LazyARA where
  env : LEnv
  Q : LQueue
  fwd : Bool
  D : Nat
  g : Nat → Nat
  v : Nat → Nat
  h : Nat → Nat
  iterC : Nat → Nat
  rn : Nat → Nat
  par : Nat → Option Nat
  epar : Nat → Option Nat
  inInc : Nat → Bool
  lazy : Nat → List LazyElem
  isTrue : Nat → Bool
  heap : Heap CKey
  incons : List Nat
  goalId : Option Nat
  startId : Option Nat
  eps : Nat
  epsSat : Option Nat
  iter : Nat
  num : Nat
  initEps : Nat
  finalEps : Nat
  decEps : Nat
  first : Bool

namespace LazyARA

/-- Exceptions / undefined behaviour. -/
inductive Err where
  | heap (e : HeapErr)
  | nullParent
  | consistentExpanded
  | noTermination
deriving DecidableEq, Repr

/-- range of `short unsigned int` -/
def SHORT : Nat := 65536

/-- GetLazySuccs / GetLazyPreds as called by ExpandState (lazyARA.cpp:116-120) -/
def nbr (st : LazyARA) (s : Nat) : List (Nat × Nat × Bool) := if st.fwd then st.env.succs s else st.env.preds s

/-- GetTrueCost as called by EvaluateState (lazyARA.cpp:139-145) for the edge from `parent` to `state` -/
def trueCost (st : LazyARA) (parent state : Nat) : Int :=
  if st.fwd then st.env.trueCost parent state else st.env.trueCost state parent

/-- the part of GetState that (re-)initialises a state (lazyARA.cpp:83-105); `hv` is the heuristic value obtained -/
def initState (st : LazyARA) (s hv : Nat) : LazyARA :=
  { st with
    g := upd st.g s INFINITECOST
    v := upd st.v s INFINITECOST
    iterC := upd st.iterC s (SHORT - 1)
    rn := upd st.rn s st.num
    par := upd st.par s none
    epar := upd st.epar s none
    heap := { st.heap with idx := upd st.heap.idx s 0 }
    inInc := upd st.inInc s false
    isTrue := upd st.isTrue s true
    lazy := upd st.lazy s []
    h := upd st.h s hv }

/-- GetState (lazyARA.cpp:67-107) -/
def getState (st : LazyARA) (s : Nat) : LazyARA :=
  if st.rn s ≠ st.num then st.initState s (if st.fwd then st.env.hGoal s else st.env.hStart s) else st

/-- GetState as called by initializeSearch, before EnsureHeuristicsUpdated (lazyARA.cpp:444-451) -/
def getStatePre (st : LazyARA) (s : Nat) : LazyARA :=
  if st.rn s ≠ st.num then st.initState s (if st.fwd then st.env.hGoalPre s else st.env.hStartPre s) else st

/-- `elem.parent->v + elem.edgeCost` -/
def val (st : LazyARA) (e : LazyElem) : Nat := st.v e.par + e.cost

/-- `key[0] = g + int(eps * h)`; `key[1]` is zero (lazyARA.cpp:239) -/
def keyFor (st : LazyARA) (s : Nat) : CKey := ⟨((st.g s + ARA.infl st.D st.eps (st.h s) : Nat) : Int), 0⟩

/-- putStateInHeap (lazyARA.cpp:232-256) -/
def putInHeap (st : LazyARA) (s : Nat) : Except Err LazyARA :=
  if st.iterC s ≠ st.iter then
    if st.heap.idx s ≠ 0 then
      match st.heap.update s (st.keyFor s) with
      | .ok h => .ok { st with heap := h }
      | .error e => .error (.heap e)
    else
      match st.heap.insert s (st.keyFor s) with
      | .ok h => .ok { st with heap := h }
      | .error e => .error (.heap e)
  else if st.inInc s then .ok st
  else .ok { st with incons := s :: st.incons, inInc := upd st.inInc s true }

/-- saving the previous best of `s` (lazyARA.cpp:203-211) -/
def saveBest (st : LazyARA) (s : Nat) : Except Err LazyARA :=
  match st.par s with
  | none => .error .nullParent
  | some p => .ok { st with lazy := upd st.lazy s (st.Q.push st.val ⟨p, st.g s - st.v p, st.isTrue s⟩ (st.lazy s)) }

/-- the new edge is the best one (lazyARA.cpp:213-227) -/
def setBest (st : LazyARA) (s p cost : Nat) (tr : Bool) : Except Err LazyARA :=
  ({ st with
    g := upd st.g s (st.v p + cost)
    par := upd st.par s (some p)
    isTrue := upd st.isTrue s tr
    lazy := if tr then upd st.lazy s [] else st.lazy } : LazyARA).putInHeap s

/-- insertLazyList (lazyARA.cpp:181-230) -/
def insertLazy (st : LazyARA) (s p cost : Nat) (tr : Bool) : Except Err LazyARA :=
  if st.v s ≤ st.v p + cost then .ok st
  else if st.g s ≤ st.v p + cost then
    if st.isTrue s then .ok st
    else .ok { st with lazy := upd st.lazy s (st.Q.push st.val ⟨p, cost, tr⟩ (st.lazy s)) }
  else if tr = false ∧ st.g s < st.v s then
    match st.saveBest s with
    | .error e => .error e
    | .ok st1 => st1.setBest s p cost tr
  else st.setBest s p cost tr

/-- getNextLazyElement (lazyARA.cpp:158-179) -/
def nextLazy (st : LazyARA) (s : Nat) : Except Err LazyARA :=
  match st.Q.pop st.val (st.lazy s) with
  | none => .ok { st with g := upd st.g s INFINITECOST, par := upd st.par s none, isTrue := upd st.isTrue s true }
  | some (e, r) =>
    ({ st with
      g := upd st.g s (st.v e.par + e.cost)
      par := upd st.par s (some e.par)
      isTrue := upd st.isTrue s e.isTrue
      lazy := upd st.lazy s (if e.isTrue then [] else r) } : LazyARA).putInHeap s

/-- EvaluateState (lazyARA.cpp:133-154) -/
def evaluate (st : LazyARA) (s : Nat) : Except Err LazyARA :=
  match st.par s with
  | none => .error .nullParent
  | some p =>
    match st.nextLazy s with
    | .error e => .error e
    | .ok st1 =>
      if st1.trueCost p s > 0 then st1.insertLazy s p (st1.trueCost p s).toNat true else .ok st1

/-- loop of ExpandState (lazyARA.cpp:123-126) -/
def expandLoop (p : Nat) : List (Nat × Nat × Bool) → LazyARA → Except Err LazyARA
  | [], st => .ok st
  | (t, c, tr) :: es, st =>
    match (st.getState t).insertLazy t p c tr with
    | .error e => .error e
    | .ok st1 => expandLoop p es st1

/-- "mark the state as expanded" and ExpandState (lazyARA.cpp:284-291, 109-127) -/
def expand (st : LazyARA) (s : Nat) : Except Err LazyARA :=
  expandLoop s (st.nbr s) { st with v := upd st.v s (st.g s), epar := upd st.epar s (st.par s), iterC := upd st.iterC s st.iter }

/-- `getminkeyheap()` -/
def minKey (st : LazyARA) : CKey := st.heap.getMinKey CKey.infinity

/-- the clock-independent part of the loop condition (lazyARA.cpp:265-268) -/
def loopCond (st : LazyARA) (gl : Nat) : Bool :=
  !st.heap.isEmpty && decide (st.minKey.k0 < 1000000000) &&
    (decide ((st.g gl : Int) > st.minKey.k0) || !st.isTrue gl) && decide ((st.v gl : Int) > st.minKey.k0)

/-- what is done with the state removed from OPEN (lazyARA.cpp:274-296); the Boolean says whether it was expanded (and not
evaluated) -/
def visit (st : LazyARA) (s : Nat) : Except Err (Nat × Bool × LazyARA) :=
  if st.v s = st.g s then .error .consistentExpanded
  else if st.isTrue s then
    match st.expand s with
    | .error e => .error e
    | .ok st2 => .ok (s, true, st2)
  else
    match st.evaluate s with
    | .error e => .error e
    | .ok st2 => .ok (s, false, st2)

/-- loop body of ImprovePath (lazyARA.cpp:271-299) -/
def step (st : LazyARA) : Except Err (Nat × Bool × LazyARA) :=
  match st.heap.deleteMin with
  | .error e => .error (.heap e)
  | .ok (s, h) => ({ st with heap := h } : LazyARA).visit s

/-- loop of ImprovePath (lazyARA.cpp:262-303); the Boolean says whether the clock ended it.  With `return_first_solution`
the clock is ignored (outOfTime, lazyARA.cpp:403-422), so running out of `budget` is the outcome `noTermination`.
The list contains the states expanded, in order. -/
def improveLoop (gl : Nat) : Nat → LazyARA → Except Err (LazyARA × Bool × List Nat)
  | 0, st => if st.loopCond gl then (if st.first then .error .noTermination else .ok (st, true, [])) else .ok (st, false, [])
  | b + 1, st =>
    if st.loopCond gl then
      match st.step with
      | .error e => .error e
      | .ok (s, ex, st1) =>
        match improveLoop gl b st1 with
        | .error e => .error e
        | .ok (st2, out, tr) => .ok (st2, out, if ex then s :: tr else tr)
    else .ok (st, false, [])

/-- "if (goal_state->v < goal_state->g)" (lazyARA.cpp:307-310) -/
def restoreGoal (st : LazyARA) (gl : Nat) : LazyARA :=
  if st.v gl < st.g gl then { st with g := upd st.g gl (st.v gl), par := upd st.par gl (st.epar gl) } else st

/-- end of ImprovePath (lazyARA.cpp:312-323): new state and return code -/
def finish (st : LazyARA) (gl : Nat) : LazyARA × Nat :=
  if st.g gl = INFINITECOST ∧ (st.heap.isEmpty = true ∨ st.minKey.k0 ≥ 1000000000) then (st, 0)
  else if st.heap.isEmpty = false ∧ (st.g gl : Int) > st.minKey.k0 then (st, 2)
  else if st.g gl < st.v gl then ({ st with epar := upd st.epar gl (st.par gl), v := upd st.v gl (st.g gl) }, 1)
  else (st, 1)

/-- ImprovePath (lazyARA.cpp:260-324): new state, return code, whether it ran out of time, expanded states -/
def improvePath (st : LazyARA) (gl budget : Nat) : Except Err (LazyARA × Nat × Bool × List Nat) :=
  match improveLoop gl budget st with
  | .error e => .error e
  | .ok (st1, out, tr) => .ok (((st1.restoreGoal gl).finish gl).1, ((st1.restoreGoal gl).finish gl).2, out, tr)

/-- "dump the inconsistent states into the open list" (lazyARA.cpp:545-551) -/
def dumpIncons : List Nat → LazyARA → Except Err LazyARA
  | [], st => .ok { st with incons := [] }
  | s :: l, st =>
    match st.heap.insert s (st.keyFor s) with
    | .error e => .error (.heap e)
    | .ok h => dumpIncons l { st with heap := h, inInc := upd st.inInc s false }

/-- re-keying loop over the slots `1..n` of the heap (lazyARA.cpp:554-557) -/
def rekey (st : LazyARA) (arr : Nat → HElem CKey) : Nat → (Nat → HElem CKey)
  | 0 => arr
  | n + 1 =>
    let a := rekey st arr n
    upd a (n + 1) ⟨(a (n + 1)).st,
      ⟨((st.g (a (n + 1)).st + ARA.infl st.D st.eps (st.h (a (n + 1)).st) : Nat) : Int), (a (n + 1)).key.k1⟩⟩

/-- prepareNextSearchIteration (lazyARA.cpp:535-561) -/
def prepareNext (st : LazyARA) : Except Err LazyARA :=
  match dumpIncons st.incons { st with eps := if st.eps - st.decEps < st.finalEps then st.finalEps else st.eps - st.decEps } with
  | .error e => .error e
  | .ok st1 => .ok { st1 with
      heap := ({ st1.heap with arr := st1.rekey st1.heap.arr st1.heap.size } : Heap CKey).makeHeap
      iter := (st1.iter + 1) % SHORT }

/-- initializeSearch (lazyARA.cpp:424-463) with search start `s0` and search goal `gl` (in the order in which GetState is called) -/
def initSearch (st : LazyARA) (s0 gl : Nat) : Except Err LazyARA :=
  let st1 := { st with
    num := (st.num + 1) % SHORT, iter := 0, heap := st.heap.makeEmpty, incons := [], eps := st.initEps, epsSat := none }
  let st2 := if st.fwd then (st1.getStatePre gl).getStatePre s0 else (st1.getStatePre s0).getStatePre gl
  let st3 := { st2 with g := upd st2.g s0 0 }
  match st3.heap.insert s0 ⟨((ARA.infl st3.D st3.eps (st3.h s0) : Nat) : Int), 0⟩ with
  | .error e => .error (.heap e)
  | .ok h => .ok { st3 with heap := h }

/-- `eps_satisfied > params.final_eps` (lazyARA.cpp:473); INFINITECOST stands for "no solution yet" -/
def notDone (st : LazyARA) : Bool :=
  match st.epsSat with
  | none => true
  | some e => decide (e > st.finalEps)

/-- What a pass of the main loop ended with. -/
structure Pass where
  ret : Nat
  out : Bool
  tr : List Nat
deriving DecidableEq, Repr

/-- main loop of Search (lazyARA.cpp:473-516).  `budgets` has one entry for every time the loop may be entered; with
`return_first_solution` only the first pass is made and the clock is ignored.  The Boolean is `false` if Search
returns "solution does not exist". -/
def searchLoop (gl : Nat) : List Nat → LazyARA → Except Err (LazyARA × Bool × List Pass)
  | [], st => if st.notDone ∧ st.first then .error .noTermination else .ok (st, true, [])
  | b :: bs, st =>
    if st.notDone then
      match st.improvePath gl b with
      | .error e => .error e
      | .ok (st1, ret, out, tr) =>
        let st2 := if ret = 1 then { st1 with epsSat := some st1.eps } else st1
        if ret = 0 then .ok (st2, false, [⟨ret, out, tr⟩])
        else if st2.first ∨ ret = 2 then .ok (st2, true, [⟨ret, out, tr⟩])
        else
          match st2.prepareNext with
          | .error e => .error e
          | .ok st3 =>
            if out then .ok (st3, true, [⟨ret, out, tr⟩])
            else
              match searchLoop gl bs st3 with
              | .error e => .error e
              | .ok (st4, ok, ps) => .ok (st4, ok, ⟨ret, out, tr⟩ :: ps)
    else .ok (st, true, [])

/-- cheapest listed edge to `t`, INFINITECOST if none (lazyARA.cpp:366-371) -/
def actionCost (es : List (Nat × Nat × Bool)) (t : Nat) : Nat :=
  es.foldl (fun a e => if e.1 = t ∧ e.2.1 < a then e.2.1 else a) INFINITECOST

/-- loop of GetSearchPath (lazyARA.cpp:349-379) from state `s`: `wholePathIds` in the order of insertion, and `solcost` -/
def walkBack (s0 : Nat) : Nat → LazyARA → Nat → Except Err (List Nat × Nat)
  | 0, _, _ => .error .noTermination
  | fuel + 1, st, s =>
    if s = s0 then .ok ([s], 0)
    else
      match st.epar s with
      | none => .ok ([s], 0)
      | some p =>
        if st.v s = INFINITECOST then .ok ([s], 0)
        else
          match walkBack s0 fuel st p with
          | .error e => .error e
          | .ok (l, c) => .ok (s :: l, actionCost (st.nbr p) s + c)

/-- GetSearchPath (lazyARA.cpp:326-401): new state, path, solcost -/
def getSearchPath (st : LazyARA) (fuel s0 gl : Nat) : Except Err (LazyARA × List Nat × Nat) :=
  let pre := st.epar gl = none
  let st1 := if pre then { st with epar := upd st.epar gl (st.par gl), v := upd st.v gl (st.g gl) } else st
  match walkBack s0 fuel st1 gl with
  | .error e => .error e
  | .ok (l, c) =>
    .ok (if pre then { st1 with epar := upd st1.epar gl none, v := upd st1.v gl INFINITECOST } else st1,
      if st.fwd then l.reverse else l, c)

/-- result of a replan call; `passes` describes its ImprovePath calls -/
structure Result where
  found : Bool
  path : List Nat
  cost : Nat
  finalEps : Option Nat
  passes : List Pass
deriving DecidableEq, Repr

/-- Search (lazyARA.cpp:465-533) with search start `s0` and search goal `gl` -/
def search (st : LazyARA) (budgets : List Nat) (s0 gl : Nat) : Except Err (LazyARA × Result) :=
  match st.initSearch s0 gl with
  | .error e => .error e
  | .ok st1 =>
    match searchLoop gl budgets st1 with
    | .error e => .error e
    | .ok (st2, ok, ps) =>
      if ok = false ∨ st2.g gl = INFINITECOST then .ok (st2, ⟨false, [], 0, st2.epsSat, ps⟩)
      else
        match st2.getSearchPath (st2.g gl + st2.v gl + 1) s0 gl with
        | .error e => .error e
        | .ok (st3, p, c) => .ok (st3, ⟨true, p, c, st3.epsSat, ps⟩)

/-- `params = p` (lazyARA.cpp:608) -/
def setParams (st : LazyARA) (initEps finalEps decEps : Nat) (first : Bool) : LazyARA :=
  { st with initEps := initEps, finalEps := finalEps, decEps := decEps, first := first }

/-- replan (lazyARA.cpp:602-634).  In a backward search `initializeSearch` (444-451) exchanges the two IDs, which
`set_goal`/`set_start` have exchanged already. -/
def replan (st : LazyARA) (budgets : List Nat) : Except Err (LazyARA × Result) :=
  match st.goalId, st.startId with
  | none, _ => .ok (st, ⟨false, [], 0, none, []⟩)
  | some _, none => .ok (st, ⟨false, [], 0, none, []⟩)
  | some gid, some sid =>
    match (if st.fwd then st.search budgets sid gid else st.search budgets gid sid) with
    | .error e => .error e
    | .ok (st1, r) => .ok ({ st1 with startId := none, goalId := none }, r)

/-- set_goal (lazyARA.cpp:636-646) -/
def setGoal (st : LazyARA) (s : Nat) : LazyARA := if st.fwd then { st with goalId := some s } else { st with startId := some s }
/-- set_start (lazyARA.cpp:648-658) -/
def setStart (st : LazyARA) (s : Nat) : LazyARA := if st.fwd then { st with startId := some s } else { st with goalId := some s }

/-- force_planning_from_scratch_and_free_memory (lazyARA.h:92-96, lazyARA.cpp:54-65): all states are deleted -/
def freeMemory (st : LazyARA) : LazyARA :=
  { st with heap := { st.heap.makeEmpty with idx := fun _ => 0 }, incons := [], rn := fun _ => SHORT - 1 }

/-- constructor (lazyARA.cpp:35-47); `rn` of states not created yet is `(unsigned short)-1` (76) -/
def init (env : LEnv) (Q : LQueue) (fwd : Bool) (D initEps finalEps decEps : Nat) (first : Bool) : LazyARA :=
  { env, Q, fwd, D, g := fun _ => INFINITECOST, v := fun _ => INFINITECOST, h := fun _ => 0, iterC := fun _ => 0,
    rn := fun _ => SHORT - 1, par := fun _ => none, epar := fun _ => none, inInc := fun _ => false, lazy := fun _ => [],
    isTrue := fun _ => true, heap := Heap.mk0 Heap.HEAPSIZE_INIT ⟨0, ⟨0, 0⟩⟩, incons := [], goalId := none, startId := none,
    eps := initEps, epsSat := none, iter := 0, num := 0, initEps, finalEps, decEps, first }

/-- One call of the planner interface; `setEnv` is any change of the environment (costs_changed does nothing, lazyARA.h:88-89,
and force_planning_from_scratch neither, 91). -/
inductive Op where
  | setStart (s : Nat)
  | setGoal (s : Nat)
  | setEnv (env : LEnv)
  | freeMemory
  | setParams (initEps finalEps decEps : Nat) (first : Bool)
  | replan (budgets : List Nat)

/-- Effect of a call; an exception leaves the planner unusable (`none`). -/
def call (st : LazyARA) : Op → Option LazyARA
  | .setStart s => some (st.setStart s)
  | .setGoal s => some (st.setGoal s)
  | .setEnv env => some { st with env := env }
  | .freeMemory => some st.freeMemory
  | .setParams a b c d => some (st.setParams a b c d)
  | .replan bs =>
    match st.replan bs with
    | .ok (st1, _) => some st1
    | .error _ => none

/-- A history of calls. -/
def run (st : LazyARA) : List Op → Option LazyARA
  | [] => some st
  | op :: ops =>
    match st.call op with
    | none => none
    | some st1 => run st1 ops

end LazyARA

/-! ## libstdc++'s `std::priority_queue` (bits/stl_heap.h) -/

namespace StdHeap

/-- `__push_heap`: move `x` from `hole` up while its parent compares less, i.e. has a larger value (`fuel` = `hole` suffices) -/
def siftUp (f : LazyElem → Nat) (x : LazyElem) : Nat → Nat → List LazyElem → List LazyElem
  | 0, hole, l => l.set hole x
  | fuel + 1, hole, l =>
    if hole = 0 then l.set hole x
    else
      match l[(hole - 1) / 2]? with
      | none => l.set hole x
      | some p => if f p > f x then siftUp f x fuel ((hole - 1) / 2) (l.set hole p) else l.set hole x

/-- `push`: push_back and `__push_heap` -/
def push (f : LazyElem → Nat) (x : LazyElem) (l : List LazyElem) : List LazyElem := siftUp f x l.length l.length (l ++ [x])

/-- `__adjust_heap`, first part: move the hole down to a leaf along the better children (`fuel` = length suffices) -/
def sinkHole (f : LazyElem → Nat) : Nat → Nat → List LazyElem → Nat × List LazyElem
  | 0, hole, l => (hole, l)
  | fuel + 1, hole, l =>
    match l[2 * hole + 1]?, l[2 * hole + 2]? with
    | some a, some b =>
      if f b > f a then sinkHole f fuel (2 * hole + 1) (l.set hole a)
      else sinkHole f fuel (2 * hole + 2) (l.set hole b)
    | some a, none => (2 * hole + 1, l.set hole a)
    | none, _ => (hole, l)

/-- `pop`: top, then `__pop_heap` and pop_back -/
def pop (f : LazyElem → Nat) (l : List LazyElem) : Option (LazyElem × List LazyElem) :=
  match l with
  | [] => none
  | top :: rest =>
    match rest.getLast? with
    | none => some (top, [])
    | some x =>
      let r := sinkHole f l.length 0 (top :: rest.dropLast)
      some (top, siftUp f x r.1 r.1 r.2)

end StdHeap

/-- libstdc++'s priority queue -/
def stdQueue : LQueue := ⟨StdHeap.push, StdHeap.pop⟩

end Sbpl
