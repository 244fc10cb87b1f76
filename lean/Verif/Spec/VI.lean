import Verif.Model.EvalPolicy
/-! # Specification: Markov decision processes with a goal, plans, policies -/

namespace Sbpl.VISpec
open MDP

/-- expected value of a function of (cost, next state) over the outcomes of an action -/
def expect (a : Action) (f : Int → Int → ℚ) : ℚ := (a.outs.map (fun o => o.2.2 * f o.2.1 o.1)).sum

/-- probabilities are not negative and add up to 1, costs are not negative -/
structure Proper (acts : Int → List Action) : Prop where
  prob : ∀ s, ∀ a ∈ acts s, ∀ o ∈ a.outs, 0 ≤ o.2.2
  total : ∀ s, ∀ a ∈ acts s, (a.outs.map (fun o => o.2.2)).sum = 1
  cost : ∀ s, ∀ a ∈ acts s, ∀ o ∈ a.outs, 0 ≤ o.2.1

/-- every action costs at least 1 -/
def UnitCost (acts : Int → List Action) : Prop := ∀ s, ∀ a ∈ acts s, ∀ o ∈ a.outs, 1 ≤ o.2.1

/-- a consistent heuristic: zero at the goal, never negative, at most INFINITECOST, and no action lowers it, in expectation, by more than it costs -/
structure HConsistent (acts : Int → List Action) (goal : Int) (h : Int → Int) : Prop where
  atGoal : h goal = 0
  nonneg : ∀ s, 0 ≤ h s
  bounded : ∀ s, h s ≤ 1000000000
  step : ∀ s, s ≠ goal → ∀ a ∈ acts s, (h s : ℚ) ≤ expect a (fun c t => c + h t)

/-- A plan: stop, or perform an action and go on depending on its outcome.  (Every policy, also one that depends on the history, is
such a plan when it is followed for a bounded number of steps.) -/
inductive Plan where
  | stop
  | act (a : Action) (next : Int → Plan)

namespace Plan

/-- every action of the plan is available where it is performed, and nothing is done at the goal -/
def Legal (acts : Int → List Action) (goal : Int) : Plan → Int → Prop
  | .stop, _ => True
  | .act a next, s => s ≠ goal ∧ a ∈ acts s ∧ ∀ o ∈ a.outs, Legal acts goal (next o.1) o.1

/-- expected cost -/
def cost : Plan → ℚ
  | .stop => 0
  | .act a next => expect a (fun c t => c + cost (next t))

/-- expected value of `w` at the state where the plan ends -/
def final (w : Int → ℚ) : Plan → Int → ℚ
  | .stop, s => w s
  | .act a next, _ => expect a (fun _ t => final w (next t) t)

/-- the plan ends at the goal, whatever happens -/
def Sure (goal : Int) : Plan → Int → Prop
  | .stop, s => s = goal
  | .act a next, _ => ∀ o ∈ a.outs, Sure goal (next o.1) o.1

end Plan

/-- the policy prescribes only available actions -/
def LegalPol (acts : Int → List Action) (π : Int → Option Action) : Prop := ∀ s a, π s = some a → a ∈ acts s

/-- states that can be met when the policy `π` is followed from `start` (up to the goal) -/
inductive Meets (π : Int → Option Action) (goal start : Int) : Int → Prop
  | start : Meets π goal start start
  | step {s : Int} {a : Action} {o : Int × Int × ℚ} : Meets π goal start s → s ≠ goal → π s = some a → o ∈ a.outs → Meets π goal start o.1

/-- expected cost of following `π` for `k` steps, or until the goal is reached or `π` has no action -/
def polCost (π : Int → Option Action) (goal : Int) : Nat → Int → ℚ
  | 0, _ => 0
  | k + 1, s => if s = goal then 0 else
    match π s with
    | none => 0
    | some a => expect a (fun c t => c + polCost π goal k t)

/-- expected number of steps made when `π` is followed for `k` steps or until the goal is reached -/
def polSteps (π : Int → Option Action) (goal : Int) : Nat → Int → ℚ
  | 0, _ => 0
  | k + 1, s => if s = goal then 0 else
    match π s with
    | none => 0
    | some a => 1 + expect a (fun _ t => polSteps π goal k t)

/-- probability that the goal is reached within `k` steps -/
def polReach (π : Int → Option Action) (goal : Int) : Nat → Int → ℚ
  | 0, s => if s = goal then 1 else 0
  | k + 1, s => if s = goal then 1 else
    match π s with
    | none => 0
    | some a => expect a (fun _ t => polReach π goal k t)

/-- the goal can be reached, with positive probability, from a state -/
inductive CanReach (acts : Int → List Action) (goal : Int) : Int → Prop
  | goal : CanReach acts goal goal
  | step {s : Int} {a : Action} {o : Int × Int × ℚ} : a ∈ acts s → o ∈ a.outs → 0 < o.2.2 → CanReach acts goal o.1 → CanReach acts goal s

/-- a finite set of states (listed without repetition) that no action leaves -/
structure Closed (acts : Int → List Action) (S : List Int) : Prop where
  nodup : S.Nodup
  closed : ∀ s ∈ S, ∀ a ∈ acts s, ∀ o ∈ a.outs, o.1 ∈ S

end Sbpl.VISpec
