import Verif.Model.LazyARA
/-!
# Lazy planning: what is a valid edge, what the planner may assume
-/

namespace Sbpl.LazySpec

/-- a directed graph with edge costs, as a relation: from, to, cost -/
abbrev Rel := Nat → Nat → Nat → Prop

/-- there is a walk from `a` to the given state of the given total cost -/
inductive RWalk (E : Rel) (a : Nat) : Nat → Nat → Prop
  | nil : RWalk E a a 0
  | snoc {b t n c : Nat} : RWalk E a b n → E b t c → RWalk E a t (n + c)

/-- consecutive elements of the list are joined by edges whose costs add up to the number -/
inductive RPath (E : Rel) : List Nat → Nat → Prop
  | single (s : Nat) : RPath E [s] 0
  | cons {s t c n : Nat} {p : List Nat} : E s t c → RPath E (t :: p) n → RPath E (s :: t :: p) (c + n)

/-- The edges that really exist, with their real costs: those listed by GetLazySuccs with a true cost, and those listed
without for which GetTrueCost returns a positive cost. -/
def Edge (env : LEnv) : Rel := fun p s c =>
  (s, c, true) ∈ env.succs p ∨ ∃ lc, (s, lc, false) ∈ env.succs p ∧ env.trueCost p s = (c : Int) ∧ 0 < c

/-- the same for GetLazyPreds: edges from `s` to `p` seen from `p` -/
def EdgeBack (env : LEnv) : Rel := fun s p c =>
  (s, c, true) ∈ env.preds p ∨ ∃ lc, (s, lc, false) ∈ env.preds p ∧ env.trueCost s p = (c : Int) ∧ 0 < c

/-- an edge that is listed, whether it exists or not -/
def Listed (env : LEnv) (p s : Nat) : Prop := ∃ c f, (s, c, f) ∈ env.succs p
def ListedBack (env : LEnv) (s p : Nat) : Prop := ∃ c f, (s, c, f) ∈ env.preds p

/-- `c` is the smallest cost with which the edge is listed, true or not (INFINITECOST if that is smaller). -/
def CheapListed (env : LEnv) : Rel := fun p s c =>
  (∀ c' f, (s, c', f) ∈ env.succs p → c ≤ c') ∧ (c = INFINITECOST ∨ ∃ f, (s, c, f) ∈ env.succs p)

/-- Listed costs are positive. -/
structure LEnvOk (env : LEnv) : Prop where
  posS : ∀ p s c f, (s, c, f) ∈ env.succs p → 1 ≤ c
  posP : ∀ p s c f, (s, c, f) ∈ env.preds p → 1 ≤ c

/-- Costs listed without evaluation are lower bounds of the real costs. -/
def LazyLower (env : LEnv) : Prop :=
  ∀ p s lc, (s, lc, false) ∈ env.succs p → 0 < env.trueCost p s → (lc : Int) ≤ env.trueCost p s

/-- inflated heuristic values decrease along real edges by at most `N / M` times the cost (eps = e / D) -/
def HeurUpTo (env : LEnv) (D e N M : Nat) : Prop :=
  ∀ s t c, Edge env s t c → M * (e * env.hGoal s / D) ≤ M * (e * env.hGoal t / D) + N * c

/-- the heuristic never overestimates differences along real edges -/
def Consistent (env : LEnv) (gl : Nat) : Prop :=
  env.hGoal gl = 0 ∧ ∀ s t c, Edge env s t c → env.hGoal s ≤ env.hGoal t + c

/-- What the planner may assume of `std::priority_queue`: as long as the comparison of the elements inside does not change,
`pop` returns an element of least value; in any case nothing is lost or invented. -/
structure QueueOk (Q : LQueue) (wf : (LazyElem → Nat) → List LazyElem → Prop) : Prop where
  nil : ∀ f, wf f []
  congr : ∀ f f' l, (∀ e ∈ l, f e = f' e) → wf f l → wf f' l
  pushWf : ∀ f e l, wf f l → wf f (Q.push f e l)
  popWf : ∀ f l e r, wf f l → Q.pop f l = some (e, r) → wf f r
  popMin : ∀ f l e r, wf f l → Q.pop f l = some (e, r) → ∀ x ∈ l, f e ≤ f x
  pushMem : ∀ f e l x, x ∈ Q.push f e l ↔ x = e ∨ x ∈ l
  popNone : ∀ f l, Q.pop f l = none ↔ l = []
  popMem : ∀ f l e r, Q.pop f l = some (e, r) → ∀ x, x ∈ l ↔ x = e ∨ x ∈ r

/-- Nothing is duplicated or dropped by the queue either (counting multiplicities). -/
def QueuePerm (Q : LQueue) : Prop :=
  (∀ f e l, (Q.push f e l).Perm (e :: l)) ∧ ∀ f l e r, Q.pop f l = some (e, r) → l.Perm (e :: r)

/-- The start and the goal set by the calls and not yet used up: a replan that has both resets both. -/
def ids : List LazyARA.Op → Option Nat × Option Nat → Option Nat × Option Nat
  | [], a => a
  | .setStart s :: ops, a => ids ops (some s, a.2)
  | .setGoal s :: ops, a => ids ops (a.1, some s)
  | .replan _ :: ops, (some _, some _) => ids ops (none, none)
  | _ :: ops, a => ids ops a

/-- the environment after the calls -/
def lastEnv (env : LEnv) : List LazyARA.Op → LEnv
  | [] => env
  | .setEnv env' :: ops => lastEnv env' ops
  | _ :: ops => lastEnv env ops

/-- initial_eps, final_eps, dec_eps, return_first_solution -/
abbrev Params := Nat × Nat × Nat × Bool

/-- the parameters after the calls -/
def lastParams (p : Params) : List LazyARA.Op → Params
  | [] => p
  | .setParams a b c d :: ops => lastParams (a, b, c, d) ops
  | _ :: ops => lastParams p ops

/-- the number of replan calls -/
def replans : List LazyARA.Op → Nat
  | [] => 0
  | .replan _ :: ops => replans ops + 1
  | _ :: ops => replans ops

/-- every environment occurring in the calls satisfies `P` -/
def AllEnv (P : LEnv → Prop) (ops : List LazyARA.Op) : Prop := ∀ op ∈ ops, ∀ env, op = .setEnv env → P env

/-- no replan call is allowed 65535 or more passes of its main loop (the pass counter has 16 bits) -/
def FewPasses (ops : List LazyARA.Op) : Prop := ∀ op ∈ ops, ∀ bs, op = .replan bs → bs.length < 65535

/-- Every replan call that has a start and a goal finds the heuristic value 0 at the goal, even before
EnsureHeuristicsUpdated is called. -/
def GoalsZero (fwd : Bool) : LEnv → Option Nat × Option Nat → List LazyARA.Op → Prop
  | _, _, [] => True
  | env, a, .setStart s :: ops => GoalsZero fwd env (some s, a.2) ops
  | env, a, .setGoal s :: ops => GoalsZero fwd env (a.1, some s) ops
  | _, a, .setEnv env' :: ops => GoalsZero fwd env' a ops
  | env, a, .freeMemory :: ops => GoalsZero fwd env a ops
  | env, a, .setParams _ _ _ _ :: ops => GoalsZero fwd env a ops
  | env, (some _, some g), .replan _ :: ops =>
    (if fwd then env.hGoalPre g else env.hStartPre g) = 0 ∧ GoalsZero fwd env (none, none) ops
  | env, a, .replan _ :: ops => GoalsZero fwd env a ops

end Sbpl.LazySpec
