import Verif.Model.MDP
/-! # Specification: reachability in a Markov chain, a set of predecessors -/

namespace Sbpl.MDPSpec
open MDP

/-- The state at position `j` is an outcome of the (single) action of the state at position `i`. -/
def Edge (m : List State) (i j : Nat) : Prop :=
  ∃ s t a o, m[i]? = some s ∧ m[j]? = some t ∧ a ∈ s.actions ∧ o ∈ a.outs ∧ o.1 = t.id

/-- reachable in any number of steps -/
inductive Reach (m : List State) (i : Nat) : Nat → Prop
  | refl : Reach m i i
  | step {j k : Nat} : Reach m i j → Edge m j k → Reach m i k

/-- a Markov chain: different states have different IDs, every state has at most one action, all outcomes exist -/
structure Chain (m : List State) : Prop where
  ids : m.Pairwise (fun s t => s.id ≠ t.id)
  single : ∀ s ∈ m, s.actions.length ≤ 1
  succs : ∀ s ∈ m, ∀ a ∈ s.actions, ∀ o ∈ a.outs, ∃ t ∈ m, t.id = o.1

/-- answers of a mathematical set to a history of calls -/
def setRun (S : Int → Prop) [DecidablePred S] : List PredOp → List Bool
  | [] => []
  | .add p :: ops => true :: setRun (fun x => x = p ∨ S x) ops
  | .remove p :: ops => decide (S p) :: setRun (fun x => x ≠ p ∧ S x) ops
  | .contains p :: ops => decide (S p) :: setRun S ops

end Sbpl.MDPSpec
