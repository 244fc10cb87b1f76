import Verif.Model.ARA
import Verif.Spec.Graph
/-!
# What a planner may assume about its environment
-/

namespace Sbpl.PlannerSpec
open GraphSpec

/-- Requirements on an environment:
* only the goal's own successor list may depend on which state is the goal (absorbing goals), and it can
  only become smaller;
* every edge costs at least 1 (ReconstructPath rejects zero-cost edges, araplanner.cpp:706-716);
* every edge listed by `GetPreds` is listed by `GetSuccs` (except possibly edges out of the goal). -/
structure EnvOk (env : PEnv) : Prop where
  goalIndep : ∀ gl gl' s, s ≠ gl → s ≠ gl' → env.succs gl s = env.succs gl' s
  goalSub : ∀ gl s e, e ∈ env.succs s s → e ∈ env.succs gl s
  posS : ∀ gl s t c, (t, c) ∈ env.succs gl s → 1 ≤ c
  posP : ∀ gl s t c, (t, c) ∈ env.preds gl s → 1 ≤ c
  dualP : ∀ gl s t c, s ≠ gl → (s, c) ∈ env.preds gl t → (t, c) ∈ env.succs gl s

/-- `GetPreds` lists every edge that `GetSuccs` lists for a state reachable from `a`.  (Backward searches are complete
only then; e.g. `EnvironmentNAV2D` violates it for an `a` inside an obstacle.) -/
def PredsOk (env : PEnv) (a : Nat) : Prop :=
  ∀ gl s t c n, Walk (env.succs gl) a s n → (t, c) ∈ env.succs gl s → (s, c) ∈ env.preds gl t

/-- The heuristic used by the search direction is consistent for every goal (start). -/
def HeurOk (env : PEnv) (fwd : Bool) : Prop :=
  if fwd then ∀ gl, Consistent (env.succs gl) gl (env.hGoal gl)
  else ∀ gl s, Consistent (env.preds gl) s (env.hStart s)

/-- The heuristic of the search direction is zero at its target, and along every edge the inflated values
decrease by at most `N / M` times the cost, for eps = e / D. -/
def HeurUpTo (env : PEnv) (fwd : Bool) (D e N M : Nat) : Prop :=
  if fwd then ∀ gl, env.hGoal gl gl = 0 ∧ UpTo (env.succs gl) (env.hGoal gl) D e N M
  else ∀ gl s, env.hStart s s = 0 ∧ UpTo (env.preds gl) (env.hStart s) D e N M

/-- every edge costs at least `m` -/
def CostsAtLeast (env : PEnv) (m : Nat) : Prop :=
  (∀ gl s t c, (t, c) ∈ env.succs gl s → m ≤ c) ∧ (∀ gl s t c, (t, c) ∈ env.preds gl s → m ≤ c)

/-- Interface calls considered: environments handed to `costs_changed` are well-formed, and every
`replan` is allowed at least one pass of its main loop (its time limit is not already over). -/
def OpOk : ARA.Op → Prop
  | .costsChanged env => EnvOk env
  | .replan bs => bs ≠ []
  | _ => True

/-- the start state set by the last `set_start` -/
def lastStart : List ARA.Op → Option Nat
  | [] => none
  | .setStart s :: ops => (lastStart ops).or (some s)
  | _ :: ops => lastStart ops

/-- the goal state set by the last `set_goal` -/
def lastGoal : List ARA.Op → Option Nat
  | [] => none
  | .setGoal s :: ops => (lastGoal ops).or (some s)
  | _ :: ops => lastGoal ops

/-- the environment after the last `costs_changed` -/
def lastEnv (env : PEnv) : List ARA.Op → PEnv
  | [] => env
  | .costsChanged env' :: ops => lastEnv env' ops
  | _ :: ops => lastEnv env ops

/-- every eps requested by the calls is at most `E` (eps values are fractions over `D`) -/
def EpsReq (E D : Nat) (ops : List ARA.Op) : Prop :=
  ∀ op ∈ ops, ∀ a b c d, op = .setParams a b c d → a ≤ E * D ∧ b ≤ E * D

/-- The clock never interrupted a pass: all expansion sequences are shorter than all budgets. -/
def NoTimeout (bs : List Nat) (trs : List (List Nat)) : Prop :=
  ∃ N, (∀ tr ∈ trs, tr.length ≤ N) ∧ ∀ b ∈ bs, N < b

/-- The graph a search explores: forward searches follow successors (of the state as a non-goal state),
backward searches predecessors. -/
def searchGraph (env : PEnv) (fwd : Bool) (goal s : Nat) : List (Nat × Nat) :=
  if fwd then env.succs (s + 1) s else env.preds goal s

end Sbpl.PlannerSpec
