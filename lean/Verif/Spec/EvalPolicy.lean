import Verif.Model.EvalPolicy
import Verif.Spec.MDP
/-! # Specification: following a policy for a number of steps -/

namespace Sbpl.EvSpec
open MDP MDPSpec

/-- the outcomes (state, cost, probability) of the policy's action in the state with the given ID; none if there is no such state or action -/
def outcomes (m : List State) (id : Int) : List (Int × Int × ℚ) :=
  match m.find? (fun s => s.id == id) with
  | some s => (s.actions.head?.map Action.outs).getD []
  | none => []

/-- expected cost of following the policy for `k` steps, or until the goal is reached -/
def costIn (m : List State) (goal : Int) : Nat → Int → ℚ
  | 0, _ => 0
  | k + 1, s => if s = goal then 0 else ((outcomes m s).map (fun o => o.2.2 * (o.2.1 + costIn m goal k o.1))).sum

/-- expected number of steps made when the policy is followed for `k` steps, or until the goal is reached -/
def stepsIn (m : List State) (goal : Int) : Nat → Int → ℚ
  | 0, _ => 0
  | k + 1, s => if s = goal then 0 else 1 + ((outcomes m s).map (fun o => o.2.2 * stepsIn m goal k o.1)).sum

/-- probability that the goal is reached within `k` steps -/
def reachIn (m : List State) (goal : Int) : Nat → Int → ℚ
  | 0, s => if s = goal then 1 else 0
  | k + 1, s => if s = goal then 1 else ((outcomes m s).map (fun o => o.2.2 * reachIn m goal k o.1)).sum

/-- A policy: a Markov chain that contains the start state, with costs that are not negative and probabilities that add up to 1. -/
structure Policy (m : List State) (start : Int) : Prop where
  chain : Chain m
  start : ∃ s ∈ m, s.id = start
  cost : ∀ s ∈ m, ∀ a ∈ s.actions, ∀ o ∈ a.outs, 0 ≤ o.2.1
  prob : ∀ s ∈ m, ∀ a ∈ s.actions, ∀ o ∈ a.outs, 0 ≤ o.2.2
  total : ∀ s ∈ m, ∀ a ∈ s.actions, (a.outs.map (fun o => o.2.2)).sum = 1

/-- every state except the goal has an action -/
def Complete (m : List State) (goal : Int) : Prop := ∀ s ∈ m, s.id ≠ goal → s.actions ≠ []

/-- every action has one outcome, which is certain -/
def Deterministic (m : List State) : Prop := ∀ s ∈ m, ∀ a ∈ s.actions, ∃ t c, a.outs = [(t, c, 1)]

/-- number of pairs (state, outcome of its action) leading to the state with the given ID -/
def indegree (m : List State) (id : Int) : Nat := (m.map (fun s => ((outcomes m s.id).filter (fun o => o.1 = id)).length)).sum

/-- the states are listed in an order in which every outcome of a state comes after the state -/
def Ordered (m : List State) : Prop := ∀ i j, Edge m i j → i < j

end Sbpl.EvSpec
