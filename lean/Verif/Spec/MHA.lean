import Verif.Model.MHA
import Verif.Spec.Graph
/-! # Specification vocabulary for histories of `MHAPlanner` calls -/

namespace Sbpl.MHASpec
open GraphSpec

/-- the start state set by the last `set_start` -/
def lastStart : List MHA.Op → Option Nat
  | [] => none
  | .setStart s :: ops => (lastStart ops).or (some s)
  | _ :: ops => lastStart ops

/-- the goal state set by the last `set_goal` -/
def lastGoal : List MHA.Op → Option Nat
  | [] => none
  | .setGoal s :: ops => (lastGoal ops).or (some s)
  | _ :: ops => lastGoal ops

/-- the environment and the heuristics in force after the calls -/
def lastEnv (env : PEnv) (hs : Nat → Nat → Nat → Nat) : List MHA.Op → PEnv × (Nat → Nat → Nat → Nat)
  | [] => (env, hs)
  | .setEnv env' hs' :: ops => lastEnv env' hs' ops
  | _ :: ops => lastEnv env hs ops

/-- the argument of the last `set_initial_mha_eps` -/
def lastMhaEps (e : Nat) : List MHA.Op → Nat
  | [] => e
  | .setMhaEps e' :: ops => lastMhaEps e' ops
  | _ :: ops => lastMhaEps e ops

/-- the argument of the last `set_max_expansions` -/
def lastMaxExp (n : Nat) : List MHA.Op → Nat
  | [] => n
  | .setMaxExp n' :: ops => lastMaxExp n' ops
  | _ :: ops => lastMaxExp n ops

end Sbpl.MHASpec
