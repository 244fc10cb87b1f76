import Verif.Model.AD
import Verif.Spec.Planner
/-!
# What `ADPlanner` may assume about its environment and about cost changes
-/

namespace Sbpl.ADSpec
open GraphSpec PlannerSpec ARA

/-- `GetPreds` lists every edge that `GetSuccs` lists for the state `t` -/
def DualAt (env : PEnv) (goal t : Nat) : Prop := ∀ u c, (u, c) ∈ env.succs goal t → (t, c) ∈ env.preds goal u

/-- Requirements on an environment of an AD* search in direction `fwd`; `m` is a lower bound of the edge costs, and
`ab` is the absorbing goal of a forward search (`none`: no state loses successors by being the goal). -/
structure EnvAD (env : PEnv) (fwd : Bool) (m : Nat) (ab : Option Nat) : Prop where
  ok : EnvOk env
  heur : HeurOk env fwd
  lo : CostsAtLeast env m
  predsIndep : fwd = true → ∀ gl gl' t, env.preds gl t = env.preds gl' t
  nonAbs : fwd = true → ab = none → ∀ gl s, env.succs gl s = env.succs (s + 1) s
  back : fwd = false → ∀ gl t, t ≠ gl → env.preds gl t = [] ∨ DualAt env gl t

/-- the edges into `t`, as listed at `t`: `GetPreds` in a forward search, `GetSuccs` in a backward search -/
def revEdges (env : PEnv) (fwd : Bool) (goal t : Nat) : List (Nat × Nat) :=
  if fwd then env.preds goal t else env.succs goal t

/-- all states of `seen` whose incoming search edges differ between the two environments are in `l` -/
def Covers (env env' : PEnv) (fwd : Bool) (l : List Nat) (seen : Nat → Prop) : Prop :=
  ∀ gl t, t ∉ l → seen t → (∀ u c, (t, c) ∈ searchGraph env fwd gl u ↔ (t, c) ∈ searchGraph env' fwd gl u) ∧
    (∀ u c, (u, c) ∈ revEdges env fwd gl t ↔ (u, c) ∈ revEdges env' fwd gl t)

/-- the heuristic of the search direction did not change -/
def SameHeur (env env' : PEnv) (fwd : Bool) : Prop :=
  if fwd then env'.hGoal = env.hGoal else env'.hStart = env.hStart

/-- every edge of the new environment existed before, possibly with another cost, or leads to a state of `seen` -/
def NoNewEdges (env env' : PEnv) (fwd : Bool) (seen : Nat → Prop) : Prop :=
  ∀ gl u t c, (t, c) ∈ searchGraph env' fwd gl u → (∃ c', (t, c') ∈ searchGraph env fwd gl u) ∨ seen t

/-- states visited since the search was last started from scratch -/
def Seen (st : ARA) (t : Nat) : Prop := st.callA t = st.call

/-- A call that keeps the incremental search meaningful.  `F`: completeness is claimed as well, so no way may be
opened to a state that was never visited. -/
def StepOk (F : Prop) (m : Nat) (ab : Option Nat) (E : Nat) (st : ARA) : AD.Op → Prop
  | .setStart _ => True
  | .setGoal s => st.fwd = true → ab = none ∨ ab = some s
  | .costsChanged env' succL predL total =>
    EnvAD env' st.fwd m ab ∧ (st.bReinit = true ∨ total / 10 < (if st.fwd then succL else predL).length ∨
      (Covers st.env env' st.fwd (if st.fwd then succL else predL) (Seen st) ∧
        (SameHeur st.env env' st.fwd ∨ ∃ t ∈ (if st.fwd then succL else predL), st.start ≠ some t ∧ Seen st t) ∧
        (F → NoNewEdges st.env env' st.fwd (Seen st))))
  | .forceScratch => True
  | .setParams a b _ _ => st.D ≤ a ∧ a ≤ E * st.D ∧ st.D ≤ b ∧ b ≤ E * st.D
  | .replan bs => bs ≠ [] ∧ (st.fwd = false → ∀ a b, st.goal = some a → st.start = some b → DualAt st.env b a)

/-- all calls of a history are of this kind -/
def HistOk (F : Prop) (m : Nat) (ab : Option Nat) (E : Nat) : ARA → List AD.Op → Prop
  | _, [] => True
  | st, op :: ops => StepOk F m ab E st op ∧ ∀ st1, AD.step st op = some st1 → HistOk F m ab E st1 ops

/-- the start state set by the last `set_start` -/
def lastStart : List AD.Op → Option Nat
  | [] => none
  | .setStart s :: ops => (lastStart ops).or (some s)
  | _ :: ops => lastStart ops

/-- the goal state set by the last `set_goal` -/
def lastGoal : List AD.Op → Option Nat
  | [] => none
  | .setGoal s :: ops => (lastGoal ops).or (some s)
  | _ :: ops => lastGoal ops

/-- the environment after the last `costs_changed` -/
def lastEnv (env : PEnv) : List AD.Op → PEnv
  | [] => env
  | .costsChanged env' _ _ _ :: ops => lastEnv env' ops
  | _ :: ops => lastEnv env ops

end Sbpl.ADSpec
