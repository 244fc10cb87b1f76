import Verif.Model.ARA16
/-!
# `ARAPlanner` with its machine integers

`v`, `g` are `unsigned int`, `h` and the edge costs are `int`, `key[0]` is a `long int`
(src/include/sbpl/planners/araplanner.h:70-104, src/include/sbpl/utils/key.h:45), and the counters are
`short unsigned int`.  Here sums of `unsigned int`s are taken modulo 2^32, counters modulo 2^16, and the
conversion `(int)(eps * h)` of a number that is not an `int` gives an arbitrary value (`conv`; it is undefined
behaviour in C++).  Only the functions in which this matters, and their callers, are defined anew; the rest of
the planner is `Model/ARA.lean`.
-/

namespace Sbpl
namespace ARA

/-- `(int)x` for a double `x ≥ 0`, as an unsigned number; arbitrary if `x` is not an `int` -/
def toInt (conv : Nat → Nat) (x : Nat) : Nat := if x < 2147483648 then x else conv x

/-- arithmetic of `unsigned int` -/
def u32 (x : Nat) : Nat := x % 4294967296

/-- `key.key[0] = g + (int)(eps * h)` (araplanner.cpp:276, 320, 478): `unsigned int` + `int`, then converted to `long int` -/
def keyForM (conv : Nat → Nat) (st : ARA) (s : Nat) : CKey :=
  ⟨((u32 (st.g s + toInt conv (infl st.D st.eps (st.h s))) : Nat) : Int), 0⟩

/-- as `reinsert` (araplanner.cpp:276-287 and 317-333) -/
def reinsertM (conv : Nat → Nat) (st : ARA) (t : Nat) : Except PErr ARA :=
  if st.iterC t ≠ st.iter then
    if st.heap.idx t ≠ 0 then
      match st.heap.update t (st.keyForM conv t) with
      | .ok h => .ok { st with heap := h }
      | .error e => .error (.heap e)
    else
      match st.heap.insert t (st.keyForM conv t) with
      | .ok h => .ok { st with heap := h }
      | .error e => .error (.heap e)
  else if st.incons.elem t = none then
    match st.incons.insert t with
    | .ok l => .ok { st with incons := l }
    | .error e => .error (.list e)
  else .ok st

/-- loop body of UpdateSuccs / UpdatePreds (araplanner.cpp:262-288, 302-334); `state->v + cost` is an `unsigned int` -/
def updateOneM (conv : Nat → Nat) (st : ARA) (s t c : Nat) : Except PErr ARA :=
  let st1 := st.touch t
  if st1.g t > u32 (st1.v s + c) then
    let st2 := { st1 with
      g := upd st1.g t (u32 (st1.v s + c))
      par := if st.fwd then upd st1.par t (some s) else st1.par
      next := if st.fwd then st1.next else upd st1.next t (some s) }
    st2.reinsertM conv t
  else .ok st1

/-- UpdateSuccs / UpdatePreds (araplanner.cpp:250-335). -/
def updateAllM (conv : Nat → Nat) (st : ARA) (s : Nat) : List (Nat × Nat) → Except PErr ARA
  | [] => .ok st
  | (t, c) :: es =>
    match st.updateOneM conv s t c with
    | .error e => .error e
    | .ok st1 => updateAllM conv st1 s es

/-- loop body of ImprovePath (araplanner.cpp:380-414) -/
def expandM (conv : Nat → Nat) (st : ARA) : Except PErr (Nat × ARA) :=
  match st.heap.deleteMin with
  | .error e => .error (.heap e)
  | .ok (s, h) =>
    let st1 := { st with heap := h, v := upd st.v s (st.g s), iterC := upd st.iterC s st.iter }
    match st1.updateAllM conv s (st1.nbr s) with
    | .error e => .error e
    | .ok st2 => .ok (s, st2)

/-- loop of ImprovePath (araplanner.cpp:375-429) -/
def improveLoopM (conv : Nat → Nat) (gl : Nat) : Nat → ARA → Except PErr (List Nat × ARA)
  | 0, st => .ok ([], st)
  | budget + 1, st =>
    if st.loopCond gl then
      match st.expandM conv with
      | .error e => .error e
      | .ok (s, st1) =>
        match improveLoopM conv gl budget st1 with
        | .error e => .error e
        | .ok (tr, st2) => .ok (s :: tr, st2)
    else .ok ([], st)

/-- ImprovePath (araplanner.cpp:346-457) -/
def improvePathM (conv : Nat → Nat) (st : ARA) (budget : Nat) : Except PErr (ARA × Nat × List Nat) :=
  match st.goal with
  | none => .error .noGoal
  | some gl =>
    match improveLoopM conv gl budget (st.touch gl) with
    | .error e => .error e
    | .ok (tr, st1) => .ok (st1, st1.retCode gl, tr)

/-- loop of BuildNewOPENList (araplanner.cpp:466-486) -/
def buildLoopM (conv : Nat → Nat) : Nat → ARA → Except PErr ARA
  | 0, st => .ok st
  | fuel + 1, st =>
    match st.incons.getFirst with
    | .error e => .error (.list e)
    | .ok none => .ok st
    | .ok (some s) =>
      match st.heap.insert s (st.keyForM conv s) with
      | .error e => .error (.heap e)
      | .ok h =>
        match st.incons.remove s with
        | .error e => .error (.list e)
        | .ok l => buildLoopM conv fuel { st with heap := h, incons := l }

/-- BuildNewOPENList (araplanner.cpp:466-486). -/
def buildNewOpenM (conv : Nat → Nat) (st : ARA) : Except PErr ARA := buildLoopM conv (st.incons.size + 1) st

/-- re-keying loop of Reevaluatefvals (araplanner.cpp:495-499) over slots `1..n` -/
def rekeyM (conv : Nat → Nat) (st : ARA) (arr : Nat → HElem CKey) : Nat → (Nat → HElem CKey)
  | 0 => arr
  | n + 1 =>
    let a := rekeyM conv st arr n
    upd a (n + 1) ⟨(a (n + 1)).st,
      ⟨((u32 (st.g (a (n + 1)).st + toInt conv (infl st.D st.eps (st.h (a (n + 1)).st))) : Nat) : Int), (a (n + 1)).key.k1⟩⟩

/-- Reevaluatefvals (araplanner.cpp:488-503). -/
def reevalFM (conv : Nat → Nat) (st : ARA) : ARA :=
  { st with
    heap := ({ st.heap with arr := st.rekeyM conv st.heap.arr st.heap.size } : Heap CKey).makeHeap
    bReeval := false }

/-- "new search iteration" (araplanner.cpp:951-955), `searchiteration++` on 16 bits -/
def newIterationM (conv : Nat → Nat) (st : ARA) : Except PErr ARA :=
  if st.bNew then buildNewOpenM conv { st with iter := (st.iter + 1) % U16, bNew := false } else .ok st

/-- one pass of Search's loop (araplanner.cpp:936-965) -/
def searchIterM (conv : Nat → Nat) (st : ARA) (budget : Nat) : Except PErr (ARA × Nat × List Nat) :=
  match st.decrease.newIterationM conv with
  | .error e => .error e
  | .ok st1 =>
    let st2 := if st1.bReeval then st1.reevalFM conv else st1
    match st2.improvePathM conv budget with
    | .error e => .error e
    | .ok (st3, ret, tr) =>
      .ok (if ret = 1 then { st3 with epsSat := some st3.eps } else st3, ret, tr)

/-- main loop of Search (araplanner.cpp:929-1006) -/
def searchLoopM (conv : Nat → Nat) (gl : Nat) : List Nat → ARA → Except PErr (ARA × List (List Nat))
  | [], st => .ok (st, [])
  | b :: bs, st =>
    if st.notDone then
      match st.searchIterM conv b with
      | .error e => .error e
      | .ok (st1, _, tr) =>
        if st1.first then .ok (st1, [tr])
        else if st1.g gl = INFINITECOST then .ok (st1, [tr])
        else
          match searchLoopM conv gl bs st1 with
          | .error e => .error e
          | .ok (st2, trs) => .ok (st2, tr :: trs)
    else .ok (st, [])

/-- Search + replan (araplanner.cpp:895-1089); ReInitializeSearchStateSpace converts `eps * h` to `long int`
(line 612), so that only its counter is on 16 bits. -/
def replanM (conv : Nat → Nat) (st : ARA) (budgets : List Nat) : Except PErr (ARA × Result) :=
  match st.start, st.goal with
  | none, _ => .error .noStart
  | some _, none => .error .noGoal
  | some s0, some gl =>
    match st.searchProlog16 gl with
    | .error e => .error e
    | .ok st1 =>
      match searchLoopM conv gl budgets st1 with
      | .error e => .error e
      | .ok (st2, trs) =>
        if st2.g gl = INFINITECOST then
          .ok (st2, ⟨false, [], st2.g gl, st2.epsSat, trs⟩)
        else
          match st2.getSearchPath (st2.g gl + 1) s0 gl with
          | .error e => .error e
          | .ok (st3, p, _) => .ok (st3, ⟨true, p, st3.g gl, st3.epsSat, trs⟩)

/-- Effect of a call; an exception leaves the planner unusable (`none`). -/
def stepM (conv : Nat → Nat) (st : ARA) : Op → Option ARA
  | .setStart s => some (st.setStart s)
  | .setGoal s => some (st.setGoal s)
  | .costsChanged env => some (st.costsChanged env)
  | .forceScratch => some st.forceScratch
  | .setParams a b c d => some (st.setParams a b c d)
  | .replan bs =>
    match st.replanM conv bs with
    | .ok (st1, _) => some st1
    | .error _ => none

/-- A history of calls. -/
def runM (conv : Nat → Nat) (st : ARA) : List Op → Option ARA
  | [] => some st
  | op :: ops =>
    match st.stepM conv op with
    | none => none
    | some st1 => runM conv st1 ops

end ARA
end Sbpl
