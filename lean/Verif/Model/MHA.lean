import Verif.Model.ARA
/-!
# `MHAPlanner` (src/planners/mhaplanner.cpp)

Modelled: set_start, set_goal, the parameter setters, check_params, replan with its anchor search and any number of
additional searches (each OPEN list is the concrete heap model), expand, extract_path.

Simplifications:
* `int` costs and heuristic values are `Nat` (no overflow; `double` to `int` conversions in range); `double` eps values are
  fractions `n / D` with one common denominator `D` and exact arithmetic.
* the clock: `m_elapsed >= max_time` becomes true after `budget` checks of the main loop (with `return_first_solution` the clock
  is not consulted: then `budget` only bounds how long the model runs).
* the table `m_search_states` / `StateID2IndexMapping` (get_state, init_state, state_from_open_state) is not modelled: a state
  that was not created yet behaves like one not visited in this call (`init_state` sets call_number = 0, and calls are numbered
  from 1).
* `force_planning_from_scratch*`, `costs_changed` do nothing in the code (mhaplanner.cpp:261-277) and are not modelled.
-/

namespace Sbpl

/-- `MHASearchState` (mhaplanner.h:36-54) as functions of the state ID, and the planner's data (mhaplanner.h:168-197).
`v` and `trace` are ghosts: the g-value at the last expansion, and the expansions of the last call, latest first (state, whether
the anchor search expanded it). -/
structure MHA where
  env : PEnv
  hs : Nat → Nat → Nat → Nat
  hcount : Nat
  D : Nat
  g : Nat → Nat
  v : Nat → Nat
  bp : Nat → Option Nat
  cAnc : Nat → Bool
  cAdd : Nat → Bool
  callA : Nat → Nat
  h : Nat → Nat → Nat
  opn : Nat → Heap CKey
  call : Nat
  start : Option Nat
  goal : Option Nat
  initEpsMha : Nat
  maxExp : Nat
  eps : Nat
  epsMha : Nat
  epsSat : Option Nat
  numExp : Nat
  trace : List (Nat × Bool)

namespace MHA

/-- the parameters of a replan call used by this planner (`ReplanParams`; `timed` is `max_time > 0`) -/
structure Params where
  initEps : Nat
  finalEps : Nat
  decEps : Nat
  first : Bool
  timed : Bool

/-- check_params (mhaplanner.cpp:379-410) -/
def checkParams (st : MHA) (p : Params) : Bool :=
  if p.initEps < st.D then false
  else if p.finalEps > p.initEps then false
  else if p.decEps = 0 then false
  else if st.initEpsMha < st.D then false
  else if p.first && !p.timed && decide (st.maxExp = 0) then false
  else true

/-- the part of time_limit_reached (mhaplanner.cpp:412-426) that does not depend on the clock -/
def expLimit (st : MHA) (p : Params) : Bool :=
  !p.first && decide (st.maxExp > 0) && decide (st.numExp ≥ st.maxExp)

/-- reinit_state (mhaplanner.cpp:493-509) for the search goal `gl` (the heuristic objects look at the environment's goal) -/
def reinitState (st : MHA) (gl s : Nat) : MHA :=
  if st.callA s ≠ st.call then
    { st with
      callA := upd st.callA s st.call
      g := upd st.g s INFINITECOST
      v := upd st.v s INFINITECOST
      bp := upd st.bp s none
      cAnc := upd st.cAnc s false
      cAdd := upd st.cAdd s false
      opn := fun i => if i ≤ st.hcount then { st.opn i with idx := upd (st.opn i).idx s 0 } else st.opn i
      h := fun i => if i ≤ st.hcount then upd (st.h i) s (st.hs i gl s) else st.h i }
  else st

/-- compute_key (mhaplanner.cpp:523-526) -/
def key (st : MHA) (s i : Nat) : Nat := st.g s + ARA.infl st.D st.eps (st.h i s)

/-- get_minf (mhaplanner.cpp:602-605) -/
def minf (st : MHA) (i : Nat) : Int := ((st.opn i).getMinKey CKey.infinity).k0

/-- insert_or_update (mhaplanner.cpp:607-618) -/
def insertOrUpdate (st : MHA) (s i f : Nat) : Except PErr MHA :=
  match (if (st.opn i).idx s ≠ 0 then (st.opn i).update s ⟨(f : Int), 0⟩ else (st.opn i).insert s ⟨(f : Int), 0⟩) with
  | .ok h => .ok { st with opn := upd st.opn i h }
  | .error e => .error (.heap e)

/-- the loop over the additional searches in expand (mhaplanner.cpp:570-580); `fa` is `fanchor` -/
def insertAdds (st : MHA) (s fa : Nat) : List Nat → Except PErr MHA
  | [] => .ok st
  | i :: is =>
    if st.key s i * st.D ≤ st.epsMha * fa then
      match st.insertOrUpdate s i (st.key s i) with
      | .error e => .error e
      | .ok st1 => insertAdds st1 s fa is
    else insertAdds st s fa is

/-- the hidx values 1 .. num_heuristics()-1 -/
def adds (st : MHA) : List Nat := (List.range st.hcount).map (· + 1)

/-- mhaplanner.cpp:564-582: reinsertion of an improved state -/
def reopen (st : MHA) (t : Nat) : Except PErr MHA :=
  if st.cAnc t = false then
    match st.insertOrUpdate t 0 (st.key t 0) with
    | .error e => .error e
    | .ok st1 => if st1.cAdd t = false then st1.insertAdds t (st.key t 0) st.adds else .ok st1
  else .ok st

/-- body of the successor loop of expand (mhaplanner.cpp:553-584) -/
def relax (st : MHA) (gl s t c : Nat) : Except PErr MHA :=
  let st1 := st.reinitState gl t
  if st1.g s + c < st1.g t then
    ({ st1 with g := upd st1.g t (st1.g s + c), bp := upd st1.bp t (some s) } : MHA).reopen t
  else .ok st1

/-- successor loop of expand (mhaplanner.cpp:552-585) -/
def relaxAll (st : MHA) (gl s : Nat) : List (Nat × Nat) → Except PErr MHA
  | [] => .ok st
  | (t, c) :: es =>
    match st.relax gl s t c with
    | .error e => .error e
    | .ok st1 => relaxAll st1 gl s es

/-- "remove s from all open lists" (mhaplanner.cpp:542-546) over the hidx values listed -/
def removeFrom (st : MHA) (s : Nat) : List Nat → Except PErr MHA
  | [] => .ok st
  | i :: is =>
    if (st.opn i).inHeap s then
      match (st.opn i).delete s with
      | .error e => .error (.heap e)
      | .ok h => removeFrom { st with opn := upd st.opn i h } s is
    else removeFrom st s is

/-- expand (mhaplanner.cpp:528-588) -/
def expand (st : MHA) (gl s i : Nat) : Except PErr MHA :=
  let st1 := { st with
    cAnc := if i = 0 then upd st.cAnc s true else st.cAnc
    cAdd := if i = 0 then st.cAdd else upd st.cAdd s true
    numExp := st.numExp + 1
    v := upd st.v s (st.g s)
    trace := (s, decide (i = 0)) :: st.trace }
  match st1.removeFrom s (List.range (st.hcount + 1)) with
  | .error e => .error e
  | .ok st2 => st2.relaxAll gl s (st2.env.succs gl s)

/-- outcome of a step of the main loop -/
inductive Out where
  | found (st : MHA)
  | go (st : MHA)

/-- `getminheap()`: the state at the root (mhaplanner.cpp:208, 229, 242) -/
def top (st : MHA) (i : Nat) : Nat := ((st.opn i).arr 1).st

/-- goal test on the list `i`, or expansion of its top (mhaplanner.cpp:202-210, 222-231, 235-244) -/
def serve (st : MHA) (gl i : Nat) : Except PErr Out :=
  if (st.g gl : Int) ≤ st.minf i then .ok (.found { st with epsSat := some (st.eps * st.epsMha) })
  else
    match st.expand gl (st.top i) i with
    | .error e => .error e
    | .ok st1 => .ok (.go st1)

/-- the list chosen by search `i` (mhaplanner.cpp:219-221): its own, or the anchor's -/
def choose (st : MHA) (i : Nat) : Nat :=
  if !(st.opn i).isEmpty && decide (st.minf i * st.D ≤ st.epsMha * st.minf 0) then i else 0

/-- the loop over the additional searches (mhaplanner.cpp:213-246) -/
def forLoop (gl : Nat) : List Nat → MHA → Except PErr Out
  | [], st => .ok (.go st)
  | i :: is, st =>
    if (st.opn 0).isEmpty then .ok (.go st)
    else
      match st.serve gl (st.choose i) with
      | .error e => .error e
      | .ok (.found st1) => .ok (.found st1)
      | .ok (.go st1) => forLoop gl is st1

/-- body of the main loop (mhaplanner.cpp:197-249) -/
def body (st : MHA) (gl : Nat) : Except PErr Out :=
  if st.hcount = 0 then st.serve gl 0 else forLoop gl st.adds st

/-- how the main loop ended -/
inductive End where
  | found | exhausted | limit
deriving DecidableEq, Repr

/-- main loop of replan (mhaplanner.cpp:197-250); `budget` checks before the clock says stop -/
def mainLoop (gl : Nat) (p : Params) : Nat → MHA → Except PErr (End × MHA)
  | 0, st => .ok (if (st.opn 0).isEmpty then .exhausted else .limit, st)
  | b + 1, st =>
    if (st.opn 0).isEmpty then .ok (.exhausted, st)
    else if st.expLimit p then .ok (.limit, st)
    else
      match st.body gl with
      | .error e => .error e
      | .ok (.found st1) => .ok (.found, st1)
      | .ok (.go st1) => mainLoop gl p b st1

/-- extract_path (mhaplanner.cpp:620-636) from state `s`: path (goal first) and `solcost`; `fuel` bounds the steps -/
def extract (st : MHA) : Nat → Nat → Except PErr (List Nat × Int)
  | 0, _ => .error .noTermination
  | fuel + 1, s =>
    match st.bp s with
    | none => .ok ([s], 0)
    | some p =>
      match extract st fuel p with
      | .error e => .error e
      | .ok (l, c) => .ok (s :: l, ((st.g s : Int) - st.g p) + c)

/-- insertion of the start state into all OPEN lists (mhaplanner.cpp:186-191) -/
def insertStart (st : MHA) (s0 : Nat) : List Nat → Except PErr MHA
  | [] => .ok st
  | i :: is =>
    match (st.opn i).insert s0 ⟨(st.key s0 i : Int), 0⟩ with
    | .error e => .error (.heap e)
    | .ok h => insertStart { st with opn := upd st.opn i h } s0 is

/-- mhaplanner.cpp:165-191: everything replan does before its main loop -/
def prepare (st : MHA) (p : Params) (s0 gl : Nat) : Except PErr MHA :=
  let st1 := { st with
    opn := fun i => if i ≤ st.hcount then (st.opn i).makeEmpty else st.opn i
    eps := p.initEps, epsMha := st.initEpsMha, epsSat := none, numExp := 0, call := st.call + 1, trace := [] }
  let st2 := st1.reinitState gl gl
  let st3 := st2.reinitState gl s0
  let st4 := { st3 with g := upd st3.g s0 0 }
  st4.insertStart s0 (List.range (st.hcount + 1))

/-- what replan returns: the return value, `solution_stateIDs_V`, `solcost`, get_solution_eps() (over D*D), the expansions
(oldest first) and whether the anchor's OPEN list was found empty -/
structure Result where
  found : Bool
  path : List Nat
  cost : Int
  eps : Option Nat
  expansions : List (Nat × Bool)
  exhausted : Bool
deriving DecidableEq, Repr

/-- replan (mhaplanner.cpp:140-259); on a parameter error nothing is changed -/
def replan (st : MHA) (p : Params) (budget : Nat) : Except PErr (MHA × Result) :=
  if st.checkParams p = false then .ok (st, ⟨false, [], 0, st.epsSat, [], false⟩)
  else
    match st.start, st.goal with
    | none, _ => .error .noStart
    | some _, none => .error .noGoal
    | some s0, some gl =>
      match st.prepare p s0 gl with
      | .error e => .error e
      | .ok st1 =>
        match mainLoop gl p budget st1 with
        | .error e => .error e
        | .ok (.found, st2) =>
          match st2.extract (st2.numExp + 1) gl with
          | .error e => .error e
          | .ok (l, c) => .ok (st2, ⟨true, l.reverse, c, st2.epsSat, st2.trace.reverse, false⟩)
        | .ok (r, st2) => .ok (st2, ⟨false, [], 0, st2.epsSat, st2.trace.reverse, decide (r = .exhausted)⟩)

/-- constructor (mhaplanner.cpp:44-86) -/
def init (env : PEnv) (hs : Nat → Nat → Nat → Nat) (hcount D : Nat) : MHA :=
  { env, hs, hcount, D, g := fun _ => 0, v := fun _ => 0, bp := fun _ => none, cAnc := fun _ => false, cAdd := fun _ => false,
    callA := fun _ => 0, h := fun _ _ => 0, opn := fun _ => Heap.mk0 Heap.HEAPSIZE_INIT ⟨0, ⟨0, 0⟩⟩, call := 0, start := none,
    goal := none, initEpsMha := D, maxExp := 0, eps := D, epsMha := D, epsSat := none, numExp := 0, trace := [] }

/-- One call of the interface (mhaplanner.cpp:98-118, 336-356); `setEnv`: the environment and the heuristics changed. -/
inductive Op where
  | setStart (s : Nat)
  | setGoal (s : Nat)
  | setEnv (env : PEnv) (hs : Nat → Nat → Nat → Nat)
  | setMhaEps (e : Nat)
  | setMaxExp (n : Nat)
  | replan (p : Params) (budget : Nat)

/-- Effect of a call; an exception leaves the planner unusable (`none`). -/
def step (st : MHA) : Op → Option MHA
  | .setStart s => some { st with start := some s }
  | .setGoal s => some { st with goal := some s }
  | .setEnv env hs => some { st with env := env, hs := hs }
  | .setMhaEps e => some { st with initEpsMha := e }
  | .setMaxExp n => some { st with maxExp := n }
  | .replan p b =>
    match st.replan p b with
    | .ok (st1, _) => some st1
    | .error _ => none

/-- A history of calls. -/
def run (st : MHA) : List Op → Option MHA
  | [] => some st
  | op :: ops =>
    match st.step op with
    | none => none
    | some st1 => run st1 ops

end MHA
end Sbpl
