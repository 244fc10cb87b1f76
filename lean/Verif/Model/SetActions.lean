import Verif.Model.Nav2D
import Verif.Model.XYT
import Verif.Model.AdjList
import Verif.Model.VI
/-!
# SetAllActionsandAllOutcomes of the environments: the actions handed to the value iteration planner

`state->Actions` is empty before the call (viplanner.cpp:275, 333).
-/

namespace Sbpl
open MDP

/-- the action with one certain outcome (AddAction, AddOutcome(id, cost, 1.0)) -/
def sureAct (aind : Nat) (id cost : Nat) : Action := ⟨aind, [((id : Int), (cost : Int), 1)]⟩

namespace Nav2D

/-- loop over the directions (environment_nav2D.cpp:799-847); `i` is `aind` -/
def outcomeLoop (f : Act → Except EnvErr (Option ((Int × Int) × Nat))) : Nat → List Act → Nav2D → Except EnvErr (Nav2D × List Action)
  | _, [], st => .ok (st, [])
  | i, a :: as, st =>
    match f a with
    | .error e => .error e
    | .ok none => outcomeLoop f (i + 1) as st
    | .ok (some (k, cost)) =>
      match outcomeLoop f (i + 1) as (st.getState k).1 with
      | .error e => .error e
      | .ok (st', l) => .ok (st', sureAct i (st.getState k).2 cost :: l)

/-- SetAllActionsandAllOutcomes (environment_nav2D.cpp:769-848); the treatment of one direction (800-831) is that of GetSuccs -/
def setAll (st : Nav2D) (id : Nat) : Except EnvErr (Nav2D × List Action) :=
  if id = st.goalId then .ok (st, [])
  else
    match st.getCoord id with
    | .error e => .error e
    | .ok (x, y) => outcomeLoop (st.cfg.succAct x y) 0 st.cfg.acts st

end Nav2D

namespace XEnv

/-- loop over the actions (environment_navxythetalat.cpp:2906-2940); `i` is `aind` -/
def outcomeLoop (f : XAct → Option (XKey × Nat)) : Nat → List XAct → XEnv → Except XErr (XEnv × List Action)
  | _, [], st => .ok (st, [])
  | i, a :: as, st =>
    match f a with
    | none => outcomeLoop f (i + 1) as st
    | some (k, cost) =>
      match st.getState k with
      | .error e => .error e
      | .ok (st1, id) =>
        match outcomeLoop f (i + 1) as st1 with
        | .error e => .error e
        | .ok (st2, l) => .ok (st2, sureAct i id cost :: l)

/-- SetAllActionsandAllOutcomes (environment_navxythetalat.cpp:2883-2941); the treatment of one action (2907-2921) is that of GetSuccs -/
def setAll (st : XEnv) (id : Nat) : Except XErr (XEnv × List Action) :=
  if id = st.goalId then .ok (st, [])
  else
    match st.getCoord id with
    | .error e => .error e
    | .ok k =>
      match st.cfg.actsAt k.2.2 with
      | .error e => .error e
      | .ok as => outcomeLoop (st.cfg.succAct k) 0 as st

end XEnv

namespace Adj
variable {C : Type}

/-- SetAllActionsandAllOutcomes (environment_precomputed_adjacency_list.h:322-337): `actionIndex` is never increased, so all actions have the ID 0;
a state ID that is no point (undefined behaviour) has no actions here -/
def Env.setAll (e : Env C) (gl s : Nat) : List Action :=
  if s = gl then [] else if s < e.points.length then (e.adj s).map (fun x => sureAct 0 x.1 x.2) else []

end Adj

/-- the environment as the value iteration planner sees it: actions for every state (`acts`, see `setAll`), the heuristic of the goal -/
def vEnvOf (acts : Nat → List Action) (h : Nat → Nat) : VI.VEnv where
  acts s := if s < 0 then [] else acts s.toNat
  h s := if s < 0 then 0 else h s.toNat

end Sbpl
