import Verif.Model.Heap
import Verif.Model.Key
/-!
# `RSTARPlanner` (src/planners/rstarplanner.cpp)

Modelled: forward and backward search, the low-level searches (ComputeLocalPath), the high-level search
(ImprovePath) on the graph of randomly generated states, its actions (including when their memory is freed), the
switch to an equivalent target state, path extraction, Search's loop over eps, set_start/set_goal,
costs_changed, force_planning_from_scratch, set_search_mode, the parameters, replan.

Simplifications:
* `int`/`unsigned` costs are `Nat` (no overflow); `double` eps values are fractions `e / D` with a common `D`;
  `fabs(a - b) < ERR_EPS` is equality.  The 16-bit call number is unbounded.
* randomness: the answer of `GetRandomSuccsatDistance`/`GetRandomPredsatDistance` is an arbitrary function of the
  state and of the number of such calls made before.
* wall-clock time: whether the time is over is an arbitrary function `clk` of the number of clock readings.
* every loop is run with a bound `fuel` on its iterations; reaching it is the outcome `noTermination`.
* `searchiteration` is set to 0 by ReInitializeSearchStateSpace and incremented before every ImprovePath, so it
  is always 1 there, and `iterationclosed == searchiteration` is the flag `closed`.  `bReevaluatefvals` is always
  false when it is tested (ReInitializeSearchStateSpace has just cleared it): Reevaluatefvals is never executed.
* a low-level search starts with all its memory destroyed by the previous one (DestroyLocalSearchMemory), so it is
  a function; the allocated size of its heap is not kept.
* GetState/CreateState: a state that was not created yet behaves like one whose information is stale.
* not modelled because unobservable: `h`, statistics, memory counters, printing.
-/

namespace Sbpl

/-- What R* uses of an environment (src/include/sbpl/discrete_space_information/environment.h): GetSuccs,
GetPreds, GetFromToHeuristic, AreEquivalent, GetRandomSuccsatDistance / GetRandomPredsatDistance (first
argument: number of earlier calls). -/
structure REnv where
  succs : Nat → List (Nat × Nat)
  preds : Nat → List (Nat × Nat)
  h : Nat → Nat → Nat
  equiv : Nat → Nat → Bool
  randS : Nat → Nat → List (Nat × Nat)
  randP : Nat → Nat → List (Nat × Nat)

/-- Exceptions and undefined behaviour: `nullAct`/`nullState` are null pointers dereferenced, `freed` is a read of
a deleted action, `clowMismatch`/`costExceeds` are the exceptions of GetSearchPath
(rstarplanner.cpp:1130-1146, 1155-1160). -/
inductive RErr where
  | heap (e : HeapErr)
  | noTermination | nullState | nullAct | freed | clowMismatch | costExceeds
deriving DecidableEq, Repr

namespace RStar

/-! ## The low-level search -/

/-- what ComputeLocalPath is called with (rstarplanner.cpp:238-239): `src`, `tgt` are StartStateID and
GoalStateID, `sgoal` is the goal of the high-level search, eps = `e / D` -/
structure LP where
  env : REnv
  fwd : Bool
  e : Nat
  D : Nat
  src : Nat
  tgt : Nat
  sgoal : Nat
  maxe : Nat
  maxc : Nat

/-- the generated states (rstarplanner.cpp:293-296) -/
def nbr (env : REnv) (fwd : Bool) (s : Nat) : List (Nat × Nat) := if fwd then env.succs s else env.preds s

/-- GetFromToHeuristic in the direction of the search (e.g. rstarplanner.cpp:226-231) -/
def hDir (env : REnv) (fwd : Bool) (a b : Nat) : Nat := if fwd then env.h a b else env.h b a

/-- `RSTARLSearchState` fields (rstarplanner.h:133-168): `par` is bestpredstate, `pc` is
bestpredstateactioncost; `lgoal` is rstarlsearchgoalstate -/
structure LS where
  g : Nat → Nat
  par : Nat → Option Nat
  pc : Nat → Nat
  heap : Heap CKey
  lgoal : Nat

/-- LocalSearchComputeKey (rstarplanner.cpp:221-236); `key[1]` is 0 from the constructor of `CKey` -/
def lkey (p : LP) (ls : LS) (s : Nat) : CKey := ⟨(ls.g s + p.e * hDir p.env p.fwd s p.tgt / p.D : Nat), 0⟩

/-- insert into OPEN or update there (rstarplanner.cpp:313-318) -/
def lpush (p : LP) (ls : LS) (t : Nat) : Except RErr LS :=
  match (if ls.heap.idx t = 0 then ls.heap.insert t (lkey p ls t) else ls.heap.update t (lkey p ls t)) with
  | .ok h => .ok { ls with heap := h }
  | .error e => .error (.heap e)

/-- "swap the goal" (rstarplanner.cpp:320-329) -/
def lswap (p : LP) (ls : LS) (t : Nat) : LS :=
  if p.env.equiv t p.sgoal = false ∧ p.env.equiv t ls.lgoal = true ∧ ls.g t < ls.g ls.lgoal then { ls with lgoal := t } else ls

/-- loop body for one successor of `s` (rstarplanner.cpp:299-331) -/
def lrelax (p : LP) (ls : LS) (s t c : Nat) : Except RErr LS :=
  if ls.g s + c < ls.g t then
    match lpush p { ls with par := upd ls.par t (some s), pc := upd ls.pc t c, g := upd ls.g t (ls.g s + c) } t with
    | .error e => .error e
    | .ok ls1 => .ok (lswap p ls1 t)
  else .ok ls

/-- all successors of `s` -/
def lrelaxAll (p : LP) (s : Nat) : List (Nat × Nat) → LS → Except RErr LS
  | [], ls => .ok ls
  | (t, c) :: es, ls =>
    match lrelax p ls s t c with
    | .error e => .error e
    | .ok ls1 => lrelaxAll p s es ls1

/-- main loop (rstarplanner.cpp:276-339); `ex` is local_expands, `tk` the number of clock readings so far -/
def lloop (p : LP) (clk : Nat → Bool) : Nat → LS → Nat → Nat → Except RErr (LS × Nat × Nat)
  | 0, _, _, _ => .error .noTermination
  | fuel + 1, ls, ex, tk =>
    let mk := (ls.heap.getMinKey CKey.infinity).k0
    if (ls.g ls.lgoal : Int) > mk ∧ ex < p.maxe ∧ mk ≤ p.maxc then
      match ls.heap.deleteMin with
      | .error e => .error (.heap e)
      | .ok (s, h) =>
        match lrelaxAll p s (nbr p.env p.fwd s) { ls with heap := h } with
        | .error e => .error e
        | .ok ls1 =>
          if (ex + 1) % 10000 = 0 then
            if clk tk then .ok (ls1, ex + 1, tk + 1) else lloop p clk fuel ls1 (ex + 1) (tk + 1)
          else lloop p clk fuel ls1 (ex + 1) tk
    else .ok (ls, ex, tk)

/-- following the best predecessors (rstarplanner.cpp:351-357): the states before the start, and the cost -/
def ltrace (s0 : Nat) (ls : LS) : Nat → Nat → Except RErr (List Nat × Nat)
  | 0, _ => .error .noTermination
  | fuel + 1, x =>
    match ls.par x with
    | none => .ok ([], 0)
    | some q =>
      if x = s0 then .ok ([], 0)
      else
        match ltrace s0 ls fuel q with
        | .error e => .error e
        | .ok (l, n) => .ok (x :: l, ls.pc x + n)

/-- results of ComputeLocalPath (its output parameters) and the number of clock readings -/
structure LRes where
  cost : Nat
  clow : Nat
  exp : Nat
  path : List Nat
  newGoal : Nat
  tk : Nat

/-- the states at the beginning of a low-level search (rstarplanner.cpp:244-269) -/
def linit (src tgt : Nat) : LS :=
  { g := upd (fun _ => INFINITECOST) src 0, par := fun _ => none, pc := fun _ => 0,
    heap := Heap.mk0 Heap.HEAPSIZE_INIT ⟨0, ⟨0, 0⟩⟩, lgoal := tgt }

/-- ComputeLocalPath (rstarplanner.cpp:238-384) -/
def localPath (p : LP) (clk : Nat → Bool) (fuel tk : Nat) : Except RErr LRes :=
  let l0 := linit p.src p.tgt
  match l0.heap.insert p.src (lkey p l0 p.src) with
  | .error e => .error (.heap e)
  | .ok h =>
    match lloop p clk fuel { l0 with heap := h } 0 tk with
    | .error e => .error e
    | .ok (ls, ex, tk1) =>
      if ls.g ls.lgoal < INFINITECOST then
        match ltrace p.src ls (ls.g ls.lgoal + 1) ls.lgoal with
        | .error e => .error e
        | .ok (l, n) =>
          .ok { cost := n, clow := ls.g ls.lgoal, exp := ex, path := if p.fwd then l.reverse else l, newGoal := ls.lgoal, tk := tk1 }
      else
        .ok { cost := INFINITECOST, clow := (ls.heap.getMinKey CKey.infinity).k0.toNat, exp := ex, path := [], newGoal := ls.lgoal, tk := tk1 }

end RStar

/-! ## The high-level search -/

/-- an action of the high-level graph: `CMDPACTION` with its only outcome `tgt` (of cost `cost`) and its
`RSTARACTIONDATA` (rstarplanner.h:110-131) -/
structure RAct where
  src : Nat
  tgt : Nat
  cost : Nat
  clow : Nat
  exp : Nat
  path : List Nat

/-- `RSTARState` fields (rstarplanner.h:60-105) as functions of the state ID, `RSTARSearchStateSpace_t`
(rstarplanner.h:220-268), the planner's parameters (rstarplanner.h:385-401), and the memory holding the actions
(`none`: not allocated or deleted).  `tk`, `rc`: numbers of clock readings and of calls for random states so far.
`epsSat = none` is INFINITECOST. -/
structure RStar where
  env : REnv
  fwd : Bool
  g : Nat → Nat
  closed : Nat → Bool
  callA : Nat → Nat
  best : Nat → Option Nat
  predA : Nat → List Nat
  acts : Nat → Option RAct
  nacts : Nat
  heap : Heap CKey
  call : Nat
  start : Option Nat
  goal : Option Nat
  eps : Nat
  epsSat : Option Nat
  bReinit : Bool
  first : Bool
  D : Nat
  iniEps : Nat
  decEps : Nat
  finEps : Nat
  thr : Nat
  tk : Nat
  rc : Nat

namespace RStar

/-- ReInitializeSearchStateInfo (rstarplanner.cpp:464-498): also deletes all actions of the state -/
def reinitState (st : RStar) (s : Nat) : RStar :=
  { st with
    g := upd st.g s INFINITECOST
    closed := upd st.closed s false
    callA := upd st.callA s st.call
    heap := { st.heap with idx := upd st.heap.idx s 0 }
    best := upd st.best s none
    predA := upd st.predA s []
    acts := fun a => match st.acts a with
      | some x => if x.src = s then none else some x
      | none => none }

/-- `if (callnumberaccessed != callnumber) ReInitializeSearchStateInfo` (e.g. rstarplanner.cpp:804-806) -/
def touch (st : RStar) (s : Nat) : RStar := if st.callA s ≠ st.call then st.reinitState s else st

/-- dereferencing a pointer to an action -/
def deref (st : RStar) (a : Nat) : Except RErr RAct :=
  match st.acts a with
  | some x => .ok x
  | none => .error .freed

/-- ComputeKey (rstarplanner.cpp:540-574) with search start `s0` and search goal `gl` -/
def keyFor (st : RStar) (s0 gl s : Nat) : Except RErr CKey :=
  let k1 : Nat := st.g s + st.eps * hDir st.env st.fwd s gl / st.D
  if st.g s * st.D > st.eps * hDir st.env st.fwd s0 s then .ok ⟨1, k1⟩
  else
    match st.best s with
    | none => .ok ⟨0, k1⟩
    | some a =>
      match st.deref a with
      | .error e => .error e
      | .ok x => if x.path = [] ∧ x.exp ≥ st.thr then .ok ⟨1, k1⟩ else .ok ⟨0, k1⟩

/-- insert into OPEN or update there (rstarplanner.cpp:534-537) -/
def push (st : RStar) (s0 gl s : Nat) : Except RErr RStar :=
  match st.keyFor s0 gl s with
  | .error e => .error e
  | .ok k =>
    match (if st.heap.idx s = 0 then st.heap.insert s k else st.heap.update s k) with
    | .ok h => .ok { st with heap := h }
    | .error e => .error (.heap e)

/-- SetBestPredecessor (rstarplanner.cpp:530-538) -/
def setBest (st : RStar) (s0 gl s p a : Nat) : Except RErr RStar :=
  match st.deref a with
  | .error e => .error e
  | .ok x => push { st with best := upd st.best s (some a), g := upd st.g s (st.g p + x.clow) } s0 gl s

/-- selection of the best predecessor (rstarplanner.cpp:745-754): `minQ`, `stateu`, `utosaction` -/
def selectLoop (st : RStar) : List Nat → Nat → Option (Nat × Nat) → Except RErr (Nat × Option (Nat × Nat))
  | [], q, b => .ok (q, b)
  | a :: as, q, b =>
    match st.deref a with
    | .error e => .error e
    | .ok x => if q ≥ st.g x.src + x.clow then selectLoop st as (st.g x.src + x.clow) (some (x.src, a)) else selectLoop st as q b

/-- "select other best predecessor" (rstarplanner.cpp:741-759) -/
def selectBest (st : RStar) (s0 gl s : Nat) : Except RErr RStar :=
  match selectLoop st (st.predA s) INFINITECOST none with
  | .error e => .error e
  | .ok (q, b) =>
    if q < INFINITECOST then
      match b with
      | none => .error .nullState
      | some (u, a) => st.setBest s0 gl s u a
    else .ok st

/-- after the low-level search (rstarplanner.cpp:729-773): `s` is the state reached by the action `a` from `p`, `sw` is bSwitch -/
def conclude (st : RStar) (s0 gl s p a : Nat) (sw : Bool) : Except RErr RStar :=
  match st.deref a with
  | .error e => .error e
  | .ok x =>
    if x.path = [] ∨ (st.g p + x.clow) * st.D > st.eps * hDir st.env st.fwd s0 s then st.selectBest s0 gl s
    else if st.g p + x.clow < st.g s ∨ sw = false then st.setBest s0 gl s p a
    else .ok st

/-- "re-compute path" (rstarplanner.cpp:632-773) for the popped state `s` with best predecessor action `a` -/
def recompute (st : RStar) (clk : Nat → Bool) (fuel : Nat) (s0 gl s a : Nat) : Except RErr RStar :=
  match st.deref a with
  | .error e => .error e
  | .ok x =>
    let p := x.src
    let maxe := if x.exp < st.thr then st.thr else INFINITECOST
    match localPath ⟨st.env, st.fwd, st.eps, st.D, p, s, gl, maxe, INFINITECOST⟩ clk fuel st.tk with
    | .error e => .error e
    | .ok r =>
      if r.newGoal ≠ s then
        let t := r.newGoal
        let st1 := touch { st with tk := r.tk } t
        let x1 : RAct := { x with cost := INFINITECOST, clow := hDir st.env st.fwd p s, exp := r.exp, path := [] }
        let x2 : RAct := ⟨p, t, r.cost, r.clow, r.exp, r.path⟩
        let n := st1.nacts
        let st2 := { st1 with acts := upd (upd st1.acts a (some x1)) n (some x2), nacts := n + 1, predA := upd st1.predA t (st1.predA t ++ [n]) }
        st2.conclude s0 gl t p n true
      else
        let x1 : RAct := { x with cost := r.cost, clow := r.clow, exp := r.exp, path := r.path }
        conclude { st with tk := r.tk, acts := upd st.acts a (some x1) } s0 gl s p a false

/-- loop over the random successors of `s` (rstarplanner.cpp:795-849) -/
def genLoop (s0 gl s : Nat) : List (Nat × Nat) → RStar → Except RErr RStar
  | [], st => .ok st
  | (t, cl) :: es, st =>
    let st1 := st.touch t
    if st1.closed t then genLoop s0 gl s es st1
    else
      let n := st1.nacts
      let st2 := { st1 with
        acts := upd st1.acts n (some ⟨s, t, INFINITECOST, cl, 0, []⟩), nacts := n + 1, predA := upd st1.predA t (st1.predA t ++ [n]) }
      if st2.best t = none ∨ st2.g s + cl < st2.g t then
        match st2.setBest s0 gl t s n with
        | .error e => .error e
        | .ok st3 => genLoop s0 gl s es st3
      else genLoop s0 gl s es st2

/-- "high-level normal expansion" (rstarplanner.cpp:774-851) -/
def expand (st : RStar) (s0 gl s : Nat) : Except RErr RStar :=
  let rs := if st.fwd then st.env.randS st.rc s else st.env.randP st.rc s
  genLoop s0 gl s rs { st with closed := upd st.closed s true, rc := st.rc + 1 }

/-- the popped state `s` is processed (rstarplanner.cpp:630-852) -/
def process (st : RStar) (clk : Nat → Bool) (fuel : Nat) (s0 gl s : Nat) : Except RErr RStar :=
  if s = s0 then st.expand s0 gl s
  else
    match st.best s with
    | none => .error .nullAct
    | some a =>
      match st.deref a with
      | .error e => .error e
      | .ok x => if x.path = [] then st.recompute clk fuel s0 gl s a else st.expand s0 gl s

/-- loop of ImprovePath (rstarplanner.cpp:613-867) with the current `goalkey` and `minkey` -/
def improveLoop (clk : Nat → Bool) (s0 gl : Nat) : Nat → RStar → CKey → CKey → Except RErr (RStar × CKey × CKey)
  | 0, _, _, _ => .error .noTermination
  | fuel + 1, st, gk, mnk =>
    if st.heap.isEmpty then .ok (st, gk, mnk)
    else if clk st.tk then .ok ({ st with tk := st.tk + 1 }, gk, mnk)
    else
      let mk1 := st.heap.getMinKey CKey.infinity
      match st.keyFor s0 gl gl with
      | .error e => .error e
      | .ok gk1 =>
        if gk1 < mk1 then .ok ({ st with tk := st.tk + 1 }, gk1, mk1)
        else
          match st.heap.deleteMin with
          | .error e => .error (.heap e)
          | .ok (s, h) =>
            match process { st with heap := h, tk := st.tk + 1 } clk fuel s0 gl s with
            | .error e => .error e
            | .ok st1 =>
              match st1.keyFor s0 gl gl with
              | .error e => .error e
              | .ok gk2 => improveLoop clk s0 gl fuel st1 gk2 (st1.heap.getMinKey CKey.infinity)

/-- ImprovePath (rstarplanner.cpp:577-895); second component: the return value is 1 -/
def improvePath (st : RStar) (clk : Nat → Bool) (fuel : Nat) (s0 gl : Nat) : Except RErr (RStar × Bool) :=
  let st1 := st.touch gl
  match (if gl ≠ s0 then .ok ⟨1, 1000000000⟩ else st1.keyFor s0 gl s0) with
  | .error e => .error e
  | .ok gk0 =>
    match improveLoop clk s0 gl fuel st1 gk0 (st1.heap.getMinKey CKey.infinity) with
    | .error e => .error e
    | .ok (st2, gk, mnk) =>
      let ret : Bool :=
        if st2.g gl = INFINITECOST ∧ st2.heap.isEmpty = true then false
        else if st2.heap.isEmpty = false ∧ mnk < gk then false
        else if st2.g gl = INFINITECOST ∧ st2.heap.isEmpty = false then false
        else true
      .ok (st2, ret)

/-- ReInitializeSearchStateSpace (rstarplanner.cpp:983-1013) -/
def reinitSpace (st : RStar) (s0 gl : Nat) : Except RErr RStar :=
  let st1 := touch { st with call := st.call + 1, heap := st.heap.makeEmpty } s0
  let st2 := { st1 with g := upd st1.g s0 0 }
  match st2.keyFor s0 gl s0 with
  | .error e => .error e
  | .ok k =>
    match st2.heap.insert s0 k with
    | .error e => .error (.heap e)
    | .ok h => .ok { st2 with heap := h, bReinit := false }

/-- loop of GetSearchPath (rstarplanner.cpp:1120-1160) from state `s`: the actions from the search goal back to the
search start; `pc` is the cost so far, `gg` is g of the search goal -/
def chain (st : RStar) (s0 gg : Nat) : Nat → Nat → Nat → Except RErr (List RAct × Nat)
  | 0, _, _ => .error .noTermination
  | fuel + 1, s, pc =>
    match st.best s with
    | none => .ok ([], pc)
    | some a =>
      if s = s0 then .ok ([], pc)
      else
        match st.deref a with
        | .error e => .error e
        | .ok x =>
          if st.g x.src + x.clow ≠ st.g s then .error .clowMismatch
          else if pc + x.cost + st.g x.src > gg then .error .costExceeds
          else
            match chain st s0 gg fuel x.src (pc + x.cost) with
            | .error e => .error e
            | .ok (l, n) => .ok (x :: l, n)

/-- GetSearchPath (rstarplanner.cpp:1096-1189): path and cost -/
def getSearchPath (st : RStar) (s0 gl : Nat) : Except RErr (List Nat × Nat) :=
  if gl = s0 then .ok ([], 0)
  else if st.g gl ≥ INFINITECOST then .ok ([], INFINITECOST)
  else
    match st.best gl with
    | none => .ok ([], INFINITECOST)
    | some a =>
      match st.deref a with
      | .error e => .error e
      | .ok x =>
        if x.path = [] then .ok ([], INFINITECOST)
        else
          match chain st s0 (st.g gl) (st.g gl + 1) gl 0 with
          | .error e => .error e
          | .ok (l, n) =>
            if st.fwd then .ok ((l.reverse.flatMap RAct.path) ++ [gl], n) else .ok ((l.flatMap RAct.path) ++ [s0], n)

/-- the solution of the current pass (rstarplanner.cpp:1300-1314) -/
def current (st : RStar) (s0 gl : Nat) : Except RErr (List Nat × Nat) :=
  if st.g gl = INFINITECOST then .ok ([], INFINITECOST)
  else
    match st.best gl with
    | none => .error .nullAct
    | some a =>
      match st.deref a with
      | .error e => .error e
      | .ok x => if x.path = [] then .ok ([], INFINITECOST) else st.getSearchPath s0 gl

/-- the eps of the next pass (rstarplanner.cpp:1254-1264) -/
def nextEps (st : RStar) : RStar :=
  if st.epsSat = some st.eps ∧ st.first = false then
    { st with eps := if st.eps - st.decEps < st.finEps then st.finEps else st.eps - st.decEps, bReinit := true }
  else st

/-- `eps_satisfied <= final_epsilon` (rstarplanner.cpp:1249) -/
def epsDone (st : RStar) : Bool :=
  match st.epsSat with
  | none => false
  | some e => decide (e ≤ st.finEps)

/-- main loop of Search (rstarplanner.cpp:1249-1325) with the best solution so far -/
def searchLoop (clk : Nat → Bool) (s0 gl : Nat) : Nat → RStar → List Nat × Nat → Except RErr (RStar × List Nat × Nat)
  | 0, _, _ => .error .noTermination
  | fuel + 1, st, sol =>
    if st.epsDone then .ok (st, sol)
    else if clk st.tk then .ok ({ st with tk := st.tk + 1 }, sol)
    else
      match reinitSpace (nextEps { st with tk := st.tk + 1 }) s0 gl with
      | .error e => .error e
      | .ok st1 =>
        match st1.improvePath clk fuel s0 gl with
        | .error e => .error e
        | .ok (st2, ret) =>
          let st3 := if ret then { st2 with epsSat := some st2.eps } else st2
          match st3.current s0 gl with
          | .error e => .error e
          | .ok cur =>
            let sol1 := if cur.2 < sol.2 then cur else sol
            if st3.first then .ok (st3, sol1)
            else if st3.g gl = INFINITECOST then .ok (st3, sol1)
            else searchLoop clk s0 gl fuel st3 sol1

/-- result of a replan call; `eps` is what `get_solution_probabilisticeps()` returns afterwards (`none`: INFINITECOST) -/
structure Result where
  found : Bool
  path : List Nat
  cost : Nat
  eps : Option Nat
deriving DecidableEq, Repr

/-- Search (rstarplanner.cpp:1204-1350).  In first-solution mode the time limit is replaced by INFINITECOST
seconds; `clk` stays arbitrary. -/
def search (st : RStar) (s0 gl : Nat) (clk : Nat → Bool) (fuel : Nat) : Except RErr (RStar × Result) :=
  let st1 := { st with eps := st.iniEps, epsSat := none, tk := 0 }
  match (if st1.bReinit then st1.reinitSpace s0 gl else .ok st1) with
  | .error e => .error e
  | .ok st2 =>
    match searchLoop clk s0 gl fuel st2 ([], INFINITECOST) with
    | .error e => .error e
    | .ok (st3, sol) => .ok (st3, ⟨decide (sol.2 ≠ INFINITECOST), sol.1, sol.2, st3.epsSat⟩)

/-- replan (rstarplanner.cpp:1354-1384); without a start or a goal a null pointer is dereferenced -/
def replan (st : RStar) (clk : Nat → Bool) (fuel : Nat) : Except RErr (RStar × Result) :=
  match st.start, st.goal with
  | some s0, some gl => st.search s0 gl clk fuel
  | _, _ => .error .nullState

/-- SetSearchGoalState (rstarplanner.cpp:1041-1067) -/
def setSearchGoal (st : RStar) (s : Nat) : RStar :=
  if st.goal = some s then st else { st with goal := some s, epsSat := none, eps := st.iniEps }

/-- SetSearchStartState (rstarplanner.cpp:1069-1080) -/
def setSearchStart (st : RStar) (s : Nat) : RStar :=
  if st.start = some s then st else { st with start := some s, bReinit := true, epsSat := none }

/-- set_goal (rstarplanner.cpp:1386-1405) -/
def setGoal (st : RStar) (s : Nat) : RStar := if st.fwd then st.setSearchGoal s else st.setSearchStart s
/-- set_start (rstarplanner.cpp:1407-1426) -/
def setStart (st : RStar) (s : Nat) : RStar := if st.fwd then st.setSearchStart s else st.setSearchGoal s

/-- constructor, CreateSearchStateSpace, InitializeSearchStateSpace (rstarplanner.cpp:44-87, 916-931, 1016-1039) -/
def init (env : REnv) (fwd : Bool) (D ini dec fin thr : Nat) : RStar :=
  { env, fwd, g := fun _ => INFINITECOST, closed := fun _ => false, callA := fun _ => 0, best := fun _ => none, predA := fun _ => [],
    acts := fun _ => none, nacts := 0, heap := Heap.mk0 Heap.HEAPSIZE_INIT ⟨0, ⟨0, 0⟩⟩, call := 0, start := none, goal := none,
    eps := ini, epsSat := none, bReinit := true, first := false, D, iniEps := ini, decEps := dec, finEps := fin, thr, tk := 0, rc := 0 }

/-- One call of the planner interface.  `setParams` stands for set_initialsolution_eps, set_eps_step and
set_local_expand_thres (rstarplanner.h:341-352). -/
inductive Op where
  | setStart (s : Nat)
  | setGoal (s : Nat)
  | costsChanged (env : REnv)
  | forceScratch
  | setMode (first : Bool)
  | setParams (ini dec thr : Nat)
  | replan (clk : Nat → Bool) (fuel : Nat)

/-- Effect of a call; after an exception the planner is not used any more (`none`).  costs_changed
(rstarplanner.cpp:1428-1438), force_planning_from_scratch (1440-1447), set_search_mode (1449-1456). -/
def step (st : RStar) : Op → Option RStar
  | .setStart s => some (st.setStart s)
  | .setGoal s => some (st.setGoal s)
  | .costsChanged env => some { st with env := env, bReinit := true }
  | .forceScratch => some { st with bReinit := true }
  | .setMode f => some { st with first := f }
  | .setParams i d t => some { st with iniEps := i, decEps := d, thr := t }
  | .replan clk fuel =>
    match st.replan clk fuel with
    | .ok (st1, _) => some st1
    | .error _ => none

/-- A history of calls. -/
def run (st : RStar) : List Op → Option RStar
  | [] => some st
  | op :: ops =>
    match st.step op with
    | none => none
    | some st1 => run st1 ops

end RStar
end Sbpl
