import Verif.Model.RStar
import Verif.Spec.Graph
/-!
# Specification vocabulary for R*

`lastStart`, `lastGoal`, `lastEnv`: what the caller has set, as a function of the calls made.
-/

namespace Sbpl.RStarSpec
open GraphSpec RStar

/-- Requirements on an environment: every edge costs at least 1. -/
structure REnvOk (env : REnv) : Prop where
  posS : ∀ s t c, (t, c) ∈ env.succs s → 1 ≤ c
  posP : ∀ s t c, (t, c) ∈ env.preds s → 1 ≤ c

/-- GetPreds lists only edges of the graph `E` (usually, the edges of GetSuccs; in an environment whose GetSuccs makes the
goal absorbing, these and the edges out of the goal) -/
def PredsIn (env : REnv) (E : Nat → List (Nat × Nat)) : Prop := ∀ s t c, (s, c) ∈ env.preds t → (t, c) ∈ E s

/-- AreEquivalent relates a state only to itself (e.g. EnvironmentNAV2D). -/
def IdEquiv (env : REnv) : Prop := ∀ a b, env.equiv a b = true → a = b

/-- The part of the graph the search can reach from state `s` (forward: along edges; backward: against them) has at
most `n` states and edge costs at most `C`, with `C * n * n` below INFINITECOST. -/
def Small (env : REnv) (fwd : Bool) (s : Nat) : Prop :=
  ∃ (V : List Nat) (C : Nat), s ∈ V ∧ (∀ u ∈ V, ∀ t c, (t, c) ∈ (if fwd then env.succs u else env.preds u) → t ∈ V ∧ c ≤ C) ∧
    C * V.length * V.length < INFINITECOST

/-- the start state set by the last `set_start` -/
def lastStart : List Op → Option Nat
  | [] => none
  | .setStart s :: ops => (lastStart ops).or (some s)
  | _ :: ops => lastStart ops

/-- the goal state set by the last `set_goal` -/
def lastGoal : List Op → Option Nat
  | [] => none
  | .setGoal s :: ops => (lastGoal ops).or (some s)
  | _ :: ops => lastGoal ops

/-- the environment as announced by the last `costs_changed` -/
def lastEnv (env : REnv) : List Op → REnv
  | [] => env
  | .costsChanged env' :: ops => lastEnv env' ops
  | _ :: ops => lastEnv env ops

/-- the environments announced in the history -/
def EnvsOk (ops : List Op) : Prop := ∀ env, Op.costsChanged env ∈ ops → REnvOk env

end Sbpl.RStarSpec
