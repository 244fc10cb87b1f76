import Verif.Model.ANA
import Verif.Spec.Planner
/-!
# Histories of calls of `anaPlanner`

`anaPlanner` does not restart its search when the state it searches *towards* changes (the goal of a forward
search, the start of a backward one); the theorems are about histories in which the caller causes a restart.
-/

namespace Sbpl.ANASpec
open GraphSpec PlannerSpec ANA

/-- environments handed to `costs_changed` are well-formed -/
def OpOk : Op → Prop
  | .costsChanged env => EnvOk env
  | _ => True

/-- the start state set by the last `set_start` -/
def lastStart : List Op → Option Nat
  | [] => none
  | .setStart s :: ops => (lastStart ops).or (some s)
  | _ :: ops => lastStart ops

/-- the goal state set by the last `set_goal` -/
def lastGoal : List Op → Option Nat
  | [] => none
  | .setGoal s :: ops => (lastGoal ops).or (some s)
  | _ :: ops => lastGoal ops

/-- the environment after the last `costs_changed` -/
def lastEnv (env : PEnv) : List Op → PEnv
  | [] => env
  | .costsChanged env' :: ops => lastEnv env' ops
  | _ :: ops => lastEnv env ops

/-- the argument of the last `set_search_mode` (false: search until the time is over or the solution is optimal) -/
def lastMode (m : Bool) : List Op → Bool
  | [] => m
  | .setMode m' :: ops => lastMode m' ops
  | _ :: ops => lastMode m ops

/-- What a caller knows: the current start and goal, whether a call since the last `replan` restarts the
search, and whether the state searched towards changed since the last `replan`. -/
structure Hist where
  start : Option Nat
  goal : Option Nat
  restart : Bool
  changed : Bool

/-- a new planner: the first `replan` starts a search -/
def Hist.new : Hist := ⟨none, none, true, false⟩

/-- effect of a call: changes of the start of a forward search (the goal of a backward one), `costs_changed` and
`force_planning_from_scratch` restart the search -/
def Hist.next (fwd : Bool) (d : Hist) : Op → Hist
  | .setStart s => if d.start = some s then d else
      { d with start := some s, restart := d.restart || fwd, changed := d.changed || !fwd }
  | .setGoal s => if d.goal = some s then d else
      { d with goal := some s, restart := d.restart || !fwd, changed := d.changed || fwd }
  | .costsChanged _ => { d with restart := true }
  | .forceScratch => { d with restart := true }
  | .setMode _ => d
  | .replan _ => { d with restart := false, changed := false }

/-- `replan` may be called: if the state searched towards changed, the search restarts, and a search that
restarts has time for at least one check of the main loop -/
def Hist.ready (d : Hist) (bs : List Nat) : Prop :=
  (d.changed = true → d.restart = true) ∧ (d.restart = true → bs ≠ [])

/-- every `replan` of the history `ops` and a final `replan bs` are called when ready -/
def Ready (fwd : Bool) (bs : List Nat) : Hist → List Op → Prop
  | d, [] => d.ready bs
  | d, .replan bs' :: ops => d.ready bs' ∧ Ready fwd bs (d.next fwd (.replan bs')) ops
  | d, op :: ops => Ready fwd bs (d.next fwd op) ops

/-- The heuristic of the search direction never exceeds the cost of reaching the state searched towards. -/
def AdmOk (env : PEnv) (fwd : Bool) : Prop :=
  if fwd then ∀ gl s n, Walk (env.succs gl) s gl n → env.hGoal gl s ≤ n
  else ∀ gl s t n, Walk (env.preds gl) t s n → env.hStart s t ≤ n

/-- `a ≤ b` for fractions (numerator, denominator); denominator 0 is infinity -/
def FracLe (a b : Nat × Nat) : Prop := a.1 * b.2 ≤ b.1 * a.2

end Sbpl.ANASpec
