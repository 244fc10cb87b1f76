import Verif.Model.ARA
/-!
# `ARAPlanner` with its real counters

The fields `callnumber`, `searchiteration`, `callnumberaccessed` and `iterationclosed` are
`short unsigned int` (src/include/sbpl/planners/araplanner.h:79, 83, 117, 118).  `Model/ARA.lean` lets the
two counters grow without bound; here they are incremented modulo 2^16.  Only the functions that increment
them, and their callers, are defined anew; the rest of the planner is `Model/ARA.lean`.

Simplification: as in `Model/ARA.lean` a state that was not created yet carries the call number 0, which in
this model is also a value the counter takes after a wrap-around (such a state then has the right g, v
and membership values, but heuristic 0).
-/

namespace Sbpl
namespace ARA

/-- number of values of a `short unsigned int` -/
def U16 : Nat := 65536

/-- ReInitializeSearchStateSpace (araplanner.cpp:575-619) with `callnumber++` on 16 bits (line 580). -/
def reinitFrom16 (st : ARA) (s0 gl : Nat) : Except PErr ARA :=
  match st.incons.makeEmpty with
  | .error e => .error (.list e)
  | .ok l =>
    let st1 := { st with
      call := (st.call + 1) % U16, iter := 0, bNew := true, heap := st.heap.makeEmpty, incons := l,
      eps := st.initEps, epsSat := none }
    let st2 := st1.touch s0
    let st3 := { st2 with g := upd st2.g s0 0 }
    let st4 := st3.touch gl
    match st4.heap.insert s0 ⟨(infl st4.D st4.eps (st4.h s0) : Nat), 0⟩ with
    | .error e => .error (.heap e)
    | .ok h => .ok { st4 with heap := h, bReinit := false, bReeval := false }

/-- ReInitializeSearchStateSpace (araplanner.cpp:575-619) -/
def reinitSpace16 (st : ARA) : Except PErr ARA :=
  match st.start, st.goal with
  | none, _ => .error .noStart
  | some _, none => .error .noGoal
  | some s0, some gl => st.reinitFrom16 s0 gl

/-- "new search iteration" (araplanner.cpp:951-955), `searchiteration++` on 16 bits -/
def newIteration16 (st : ARA) : Except PErr ARA :=
  if st.bNew then buildNewOpen { st with iter := (st.iter + 1) % U16, bNew := false } else .ok st

/-- one pass of Search's loop (araplanner.cpp:936-965) -/
def searchIter16 (st : ARA) (budget : Nat) : Except PErr (ARA × Nat × List Nat) :=
  match st.decrease.newIteration16 with
  | .error e => .error e
  | .ok st1 =>
    let st2 := if st1.bReeval then st1.reevalF else st1
    match st2.improvePath budget with
    | .error e => .error e
    | .ok (st3, ret, tr) =>
      .ok (if ret = 1 then { st3 with epsSat := some st3.eps } else st3, ret, tr)

/-- main loop of Search (araplanner.cpp:929-1006) -/
def searchLoop16 (gl : Nat) : List Nat → ARA → Except PErr (ARA × List (List Nat))
  | [], st => .ok (st, [])
  | b :: bs, st =>
    if st.notDone then
      match st.searchIter16 b with
      | .error e => .error e
      | .ok (st1, _, tr) =>
        if st1.first then .ok (st1, [tr])
        else if st1.g gl = INFINITECOST then .ok (st1, [tr])
        else
          match searchLoop16 gl bs st1 with
          | .error e => .error e
          | .ok (st2, trs) => .ok (st2, tr :: trs)
    else .ok (st, [])

/-- prologue of Search (araplanner.cpp:907-920) -/
def searchProlog16 (st : ARA) (gl : Nat) : Except PErr ARA :=
  let st1 := if st.bReeval then st.reevalH gl else st
  if st1.bReinit then st1.reinitSpace16 else .ok st1

/-- Search + replan (araplanner.cpp:895-1089). -/
def replan16 (st : ARA) (budgets : List Nat) : Except PErr (ARA × Result) :=
  match st.start, st.goal with
  | none, _ => .error .noStart
  | some _, none => .error .noGoal
  | some s0, some gl =>
    match st.searchProlog16 gl with
    | .error e => .error e
    | .ok st1 =>
      match searchLoop16 gl budgets st1 with
      | .error e => .error e
      | .ok (st2, trs) =>
        if st2.g gl = INFINITECOST then
          .ok (st2, ⟨false, [], st2.g gl, st2.epsSat, trs⟩)
        else
          match st2.getSearchPath (st2.g gl + 1) s0 gl with
          | .error e => .error e
          | .ok (st3, p, _) => .ok (st3, ⟨true, p, st3.g gl, st3.epsSat, trs⟩)

/-- Effect of a call; an exception leaves the planner unusable (`none`). -/
def step16 (st : ARA) : Op → Option ARA
  | .setStart s => some (st.setStart s)
  | .setGoal s => some (st.setGoal s)
  | .costsChanged env => some (st.costsChanged env)
  | .forceScratch => some st.forceScratch
  | .setParams a b c d => some (st.setParams a b c d)
  | .replan bs =>
    match st.replan16 bs with
    | .ok (st1, _) => some st1
    | .error _ => none

/-- A history of calls. -/
def run16 (st : ARA) : List Op → Option ARA
  | [] => some st
  | op :: ops =>
    match st.step16 op with
    | none => none
    | some st1 => run16 st1 ops

end ARA
end Sbpl
