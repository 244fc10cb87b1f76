import Verif.Model.ARA
/-!
# `anaPlanner` (src/planners/ANAplanner.cpp)

Modelled: forward and backward search, per-call lazy re-initialisation of state information, the OPEN
heap (the concrete heap model), ImprovePath, the pruning/re-keying loop of Search, path extraction,
set_start/set_goal, costs_changed, force_planning_from_scratch, set_search_mode, replan.

Simplifications:
* `unsigned`/`int` costs are `Nat` (no overflow, non-negative heuristics); the 16-bit counters
  `callnumber`/`searchiteration` are unbounded.
* `double` values are exact fractions; `eps_satisfied` is the fraction `(num, den)`, `den = 0` is infinity.
* wall-clock time: the clock conditions of ImprovePath's loop are true for a certain number of checks and then
  false; that number is the argument `budget`.  Likewise for Search's loop and `budgets.length`.  In
  first-solution mode the code replaces the time limit by INFINITECOST seconds; the budgets stay arbitrary.
* `USE_HEUR` is 1.
* the `searchMDP.StateArray`/`StateID2IndexMapping` indirection (GetState/CreateState) is not modelled: a
  state that was not created yet behaves like a state whose information is stale.
* `EnsureHeuristicsUpdated` has no effect: heuristics are functions of the environment and its goal/start.
* not modelled because unobservable: the internal `eps`, `iterationclosed`, `costtobestnextstate`, statistics,
  printing (including the message about a consistent state being expanded and ImprovePath's return code, which
  only selects messages).
-/

namespace Sbpl

/-- `anaState` fields (src/include/sbpl/planners/ANAplanner.h:37-78) as functions of the state ID,
`anaSearchStateSpace_t` (ANAplanner.h:83-101) and the planner's parameters (ANAplanner.h:183-190).
`par` is `bestpredstate`, `next` is `bestnextstate`, `bestG` is `G`. -/
structure ANA where
  env : PEnv
  fwd : Bool
  g : Nat → Nat
  v : Nat → Nat
  h : Nat → Nat
  callA : Nat → Nat
  par : Nat → Option Nat
  next : Nat → Option Nat
  heap : Heap CKey
  call : Nat
  bestG : Nat
  start : Option Nat
  goal : Option Nat
  epsSat : Nat × Nat
  bReinit : Bool
  first : Bool

namespace ANA

/-- Expansion list: `GetSuccs` (UpdateSuccs, ANAplanner.cpp:277) or `GetPreds` (UpdatePreds,
ANAplanner.cpp:242). -/
def nbr (st : ANA) (s : Nat) : List (Nat × Nat) :=
  if st.fwd then st.env.succs (st.goal.getD 0) s else st.env.preds (st.start.getD 0) s

/-- `ComputeHeuristic` (ANAplanner.cpp:118-143) with the search goal `gl`. -/
def heur (st : ANA) (gl s : Nat) : Nat :=
  if st.fwd then st.env.hGoal gl s else st.env.hStart gl s

/-- `InitializeSearchStateInfo` / `ReInitializeSearchStateInfo` (ANAplanner.cpp:146-201). -/
def reinitState (st : ANA) (s : Nat) : ANA :=
  { st with
    g := upd st.g s INFINITECOST
    v := upd st.v s INFINITECOST
    callA := upd st.callA s st.call
    next := upd st.next s none
    par := upd st.par s none
    heap := { st.heap with idx := upd st.heap.idx s 0 }
    h := upd st.h s (match st.goal with | some gl => st.heur gl s | none => 0) }

/-- `if (callnumberaccessed != callnumber) ReInitializeSearchStateInfo` (e.g. ANAplanner.cpp:248). -/
def touch (st : ANA) (s : Nat) : ANA := if st.callA s ≠ st.call then st.reinitState s else st

/-- `(long)-get_e_value(...)` (ANAplanner.cpp:210-232 and e.g. 257).  The quotient of two 32-bit integers
computed in `double` truncates to the same integer as the exact quotient. -/
def eKey (st : ANA) (s : Nat) : Int :=
  if st.h s = 0 then
    if st.g s ≥ st.bestG then 0 else -1000000000
  else -(((st.bestG : Int) - (st.g s : Int)).tdiv (st.h s : Int))

/-- `get_e_value(...) <= 1.0` (ANAplanner.cpp:210-232, 937) -/
def eLeOne (st : ANA) (s : Nat) : Bool :=
  if st.h s = 0 then decide (st.g s ≥ st.bestG)
  else decide ((st.bestG : Int) - (st.g s : Int) ≤ (st.h s : Int))

/-- the OPEN key of a state: `key[0] = (long)-e`, `key[1] = 0` from the constructor of `CKey` -/
def keyFor (st : ANA) (s : Nat) : CKey := ⟨st.eKey s, 0⟩

/-- insert into OPEN or update its key there (ANAplanner.cpp:257-263, 293-301) -/
def reinsert (st : ANA) (t : Nat) : Except PErr ANA :=
  if st.heap.idx t ≠ 0 then
    match st.heap.update t (st.keyFor t) with
    | .ok h => .ok { st with heap := h }
    | .error e => .error (.heap e)
  else
    match st.heap.insert t (st.keyFor t) with
    | .ok h => .ok { st with heap := h }
    | .error e => .error (.heap e)

/-- Loop body of UpdatePreds / UpdateSuccs for one edge (ANAplanner.cpp:245-265, 280-303). -/
def updateOne (st : ANA) (s t c : Nat) : Except PErr ANA :=
  let st1 := st.touch t
  if st1.g t > st1.g s + c ∧ st1.g s + c + st1.h t < st1.bestG then
    let st2 := { st1 with
      g := upd st1.g t (st1.g s + c)
      par := if st.fwd then upd st1.par t (some s) else st1.par
      next := if st.fwd then st1.next else upd st1.next t (some s) }
    st2.reinsert t
  else .ok st1

/-- UpdatePreds / UpdateSuccs (ANAplanner.cpp:235-304). -/
def updateAll (st : ANA) (s : Nat) : List (Nat × Nat) → Except PErr ANA
  | [] => .ok st
  | (t, c) :: es =>
    match st.updateOne s t c with
    | .error e => .error e
    | .ok st1 => updateAll st1 s es

/-- loop of ImprovePath (ANAplanner.cpp:341-431); second component: the states expanded, in order -/
def improveLoop (gl : Nat) : Nat → ANA → Except PErr (ANA × List Nat)
  | 0, st => .ok (st, [])
  | budget + 1, st =>
    if st.heap.isEmpty then .ok (st, [])
    else
      match st.heap.deleteMin with
      | .error e => .error (.heap e)
      | .ok (s, h) =>
        let st1 := { st with heap := h }
        if s = gl then .ok ({ st1 with bestG := st1.g s }, [])
        else
          let st2 := { st1 with v := upd st1.v s (st1.g s) }
          match st2.updateAll s (st2.nbr s) with
          | .error e => .error e
          | .ok st3 =>
            match improveLoop gl budget { st3 with bestG := st3.g gl } with
            | .error e => .error e
            | .ok (st4, tr) => .ok (st4, s :: tr)

/-- ImprovePath (ANAplanner.cpp:315-457). -/
def improvePath (st : ANA) (budget : Nat) : Except PErr (ANA × List Nat) :=
  match st.goal with
  | none => .error .noGoal
  | some gl => improveLoop gl budget (st.touch gl)

/-- "prune and re-key OPEN" loop of Search (ANAplanner.cpp:929-949) at slot `j` with `epsprime = ep`; every
iteration removes a state or increases `j`, so `currentsize` iterations (`fuel`) suffice. -/
def rekeyLoop : Nat → ANA → Nat → Nat × Nat → Except PErr ANA
  | 0, st, _, _ => .ok st
  | fuel + 1, st, j, ep =>
    if j ≤ st.heap.size then
      let s := (st.heap.arr j).st
      let ep1 := if st.bestG * ep.2 > ep.1 * (st.g s + st.h s) then (st.bestG, st.g s + st.h s) else ep
      if st.eLeOne s then
        match st.heap.deleteUnsafe s with
        | .error e => .error (.heap e)
        | .ok h => rekeyLoop fuel { st with heap := h, epsSat := ep1 } j ep1
      else
        match st.heap.updateUnsafe s (st.keyFor s) with
        | .error e => .error (.heap e)
        | .ok h => rekeyLoop fuel { st with heap := h, epsSat := ep1 } (j + 1) ep1
    else .ok st

/-- one pass of Search's loop (ANAplanner.cpp:911-951) -/
def pass (st : ANA) (budget : Nat) : Except PErr (ANA × List Nat) :=
  match st.improvePath budget with
  | .error e => .error e
  | .ok (st1, tr) =>
    match rekeyLoop st1.heap.size st1 1 (1, 1) with
    | .error e => .error e
    | .ok st2 => .ok ({ st2 with heap := st2.heap.makeHeap }, tr)

/-- main loop of Search (ANAplanner.cpp:889-980); second component: the states expanded in each pass -/
def searchLoop (gl : Nat) : List Nat → ANA → Except PErr (ANA × List (List Nat))
  | [], st => .ok (st, [])
  | b :: bs, st =>
    if st.heap.isEmpty = false ∧ st.epsSat.1 > st.epsSat.2 then
      match st.pass b with
      | .error e => .error e
      | .ok (st1, tr) =>
        if st1.first then .ok (st1, [tr])
        else if st1.g gl = INFINITECOST then .ok (st1, [tr])
        else
          match searchLoop gl bs st1 with
          | .error e => .error e
          | .ok (st2, trs) => .ok (st2, tr :: trs)
    else .ok (st, [])

/-- ReInitializeSearchStateSpace (ANAplanner.cpp:543-584) with search start `s0`. -/
def reinitFrom (st : ANA) (s0 : Nat) : Except PErr ANA :=
  let st1 := { st with
    call := st.call + 1, bestG := INFINITECOST, heap := st.heap.makeEmpty, epsSat := (INFINITECOST, 1) }
  let st2 := st1.touch s0
  let st3 := { st2 with g := upd st2.g s0 0 }
  match st3.heap.insert s0 (st3.keyFor s0) with
  | .error e => .error (.heap e)
  | .ok h => .ok { st3 with heap := h, bReinit := false }

/-- ReconstructPath (ANAplanner.cpp:652-701) from state `s`; `fuel` bounds the number of steps.
`.ok none` is the return value -1. -/
def reconstruct (s0 : Nat) : Nat → ANA → Nat → Except PErr (Option ANA)
  | 0, _, _ => .error .noTermination
  | fuel + 1, st, s =>
    if s = s0 then .ok (some st)
    else if st.g s = INFINITECOST then .ok none
    else
      match st.par s with
      | none => .error .predNull
      | some p =>
        let st1 := { st with next := upd st.next p (some s) }
        if st1.v p ≥ st1.g s then .error .nonDecreasing
        else reconstruct s0 fuel st1 p

/-- path-following loop of GetSearchPath (ANAplanner.cpp:803-853); the summed action costs are only printed
and not modelled -/
def follow (gl : Nat) : Nat → ANA → Nat → Except PErr (List Nat)
  | 0, _, _ => .error .noTermination
  | fuel + 1, st, s =>
    if s = gl then .ok [s]
    else
      match st.next s with
      | none => .ok [s]
      | some t =>
        if st.g s = INFINITECOST then .ok [s]
        else
          match follow gl fuel st t with
          | .error e => .error e
          | .ok p => .ok (s :: p)

/-- GetSearchPath (ANAplanner.cpp:778-858).  The loops are run with `fuel` steps; running out of it is
the outcome `noTermination`. -/
def getSearchPath (st : ANA) (fuel : Nat) (s0 gl : Nat) : Except PErr (ANA × List Nat) :=
  if st.fwd then
    match reconstruct s0 fuel st gl with
    | .error e => .error e
    | .ok r =>
      let st1 := r.getD st
      match follow gl fuel st1 s0 with
      | .error e => .error e
      | .ok p => .ok (st1, p)
  else
    match follow s0 fuel st gl with
    | .error e => .error e
    | .ok p => .ok (st, p)

/-- result of a replan call; `eps` is what `get_solution_eps()` returns afterwards (numerator,
denominator), `traces` are the states expanded in each pass -/
structure Result where
  found : Bool
  path : List Nat
  cost : Nat
  eps : Nat × Nat
  traces : List (List Nat)
deriving DecidableEq, Repr

/-- Search + replan (ANAplanner.cpp:860-1043). -/
def replan (st : ANA) (budgets : List Nat) : Except PErr (ANA × Result) :=
  match st.start, st.goal with
  | none, _ => .error .noStart
  | some _, none => .error .noGoal
  | some s0, some gl =>
    match (if st.bReinit then st.reinitFrom s0 else .ok st) with
    | .error e => .error e
    | .ok st1 =>
      match searchLoop gl budgets st1 with
      | .error e => .error e
      | .ok (st2, trs) =>
        if st2.g gl = INFINITECOST then .ok (st2, ⟨false, [], st2.g gl, st2.epsSat, trs⟩)
        else
          match st2.getSearchPath (st2.g gl + 1) s0 gl with
          | .error e => .error e
          | .ok (st3, p) => .ok (st3, ⟨true, p, st3.g gl, st3.epsSat, trs⟩)

/-- SetSearchGoalState (ANAplanner.cpp:612-638): the heuristic values of all states are recomputed, but the
search is not restarted and OPEN is not re-keyed.  Recomputing the value of a state that was not created has
no observable effect. -/
def setSearchGoal (st : ANA) (s : Nat) : ANA :=
  if st.goal = some s then st
  else
    let st1 := { st with goal := some s, epsSat := (INFINITECOST, 1) }
    { st1 with h := fun u => st1.heur s u }

/-- SetSearchStartState (ANAplanner.cpp:640-650). -/
def setSearchStart (st : ANA) (s : Nat) : ANA :=
  if st.start = some s then st else { st with start := some s, bReinit := true }

/-- set_goal (ANAplanner.cpp:1045-1064). -/
def setGoal (st : ANA) (s : Nat) : ANA := if st.fwd then st.setSearchGoal s else st.setSearchStart s
/-- set_start (ANAplanner.cpp:1066-1086). -/
def setStart (st : ANA) (s : Nat) : ANA := if st.fwd then st.setSearchStart s else st.setSearchGoal s

/-- costs_changed (ANAplanner.cpp:1088-1096), called after the environment has become `env`. -/
def costsChanged (st : ANA) (env : PEnv) : ANA := { st with env := env, bReinit := true }

/-- force_planning_from_scratch (ANAplanner.cpp:1098-1105). -/
def forceScratch (st : ANA) : ANA := { st with bReinit := true }

/-- set_search_mode (ANAplanner.cpp:1107-1114). -/
def setMode (st : ANA) (first : Bool) : ANA := { st with first := first }

/-- constructor + InitializeSearchStateSpace (ANAplanner.cpp:22-47, 587-610). -/
def init (env : PEnv) (fwd : Bool) : ANA :=
  { env, fwd, g := fun _ => INFINITECOST, v := fun _ => INFINITECOST, h := fun _ => 0,
    callA := fun _ => 0, par := fun _ => none, next := fun _ => none,
    heap := Heap.mk0 Heap.HEAPSIZE_INIT ⟨0, ⟨0, 0⟩⟩, call := 0, bestG := INFINITECOST,
    start := none, goal := none, epsSat := (INFINITECOST, 1), bReinit := true, first := false }

/-- One call of the planner interface. -/
inductive Op where
  | setStart (s : Nat)
  | setGoal (s : Nat)
  | costsChanged (env : PEnv)
  | forceScratch
  | setMode (first : Bool)
  | replan (budgets : List Nat)

/-- Effect of a call; an exception leaves the planner unusable (`none`). -/
def step (st : ANA) : Op → Option ANA
  | .setStart s => some (st.setStart s)
  | .setGoal s => some (st.setGoal s)
  | .costsChanged env => some (st.costsChanged env)
  | .forceScratch => some st.forceScratch
  | .setMode f => some (st.setMode f)
  | .replan bs =>
    match st.replan bs with
    | .ok (st1, _) => some st1
    | .error _ => none

/-- A history of calls. -/
def run (st : ANA) : List Op → Option ANA
  | [] => some st
  | op :: ops =>
    match st.step op with
    | none => none
    | some st1 => run st1 ops

end ANA
end Sbpl
