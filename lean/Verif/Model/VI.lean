import Verif.Model.EvalPolicy
/-!
# The value iteration planner `VIPlanner` (src/planners/viplanner.cpp, src/include/sbpl/planners/viplanner.h)

`float`, `double` are exact rationals (so `v = (float)minactionQ` does not round).  `CMDPSTATE*` is the state ID.  States are created
by `GetState` on first use with the same data at any time (bestnextaction NULL, iteration 0, v the heuristic), so the model has
them all from the beginning; `MAXSTATESPACESIZE` is not modelled.  The actions of a state are asked from the environment when
the vector `Actions` is empty and kept otherwise: the model asks each time (`acts` is a function, the environment does not
change).  `perform_iteration_backward` (259-314) is never called.  Files, statistics and printing are left out, except that
`PrintPolicy` builds the policy and calls `EvaluatePolicy`.
-/

namespace Sbpl
namespace VI
open MDP

/-- update of a function at one state ID -/
def updI {α : Type} (f : Int → α) (k : Int) (x : α) : Int → α := fun j => if j = k then x else f j

/-- the environment: `SetAllActionsandAllOutcomes` and `GetGoalHeuristic` -/
structure VEnv where
  acts : Int → List Action
  h : Int → Int

/-- `VIState` of all states (viplanner.h:53-75) and `viPlanner.iteration` (viplanner.h:47) -/
structure St where
  v : Int → ℚ
  best : Int → Option Action
  iter : Int → Nat
  iteration : Nat

/-- `#define MDP_ERRDELTA 0.01` (viplanner.h:37) -/
def ERRDELTA : ℚ := 1 / 100

/-- all states as `Initialize_vidata` (viplanner.cpp:48-55) leaves them -/
def fresh (env : VEnv) : St := ⟨fun s => env.h s, fun _ => none, fun _ => 0, 0⟩

/-- `actionQ` (viplanner.cpp:235-241): outcomes still to add, sum so far -/
def qLoop (v : Int → ℚ) : List (Int × Int × ℚ) → ℚ → ℚ
  | [], q => q
  | (t, c, p) :: os, q => qLoop v os (q + p * (c + v t))

/-- the loop over the actions (viplanner.cpp:234-247): `minaction`, `minactionQ` -/
def minLoop (v : Int → ℚ) : List Action → Option Action → ℚ → Option Action × ℚ
  | [], a, q => (a, q)
  | x :: xs, a, q =>
    if a.isNone = true ∨ qLoop v x.outs 0 < q then minLoop v xs (some x) (qLoop v x.outs 0)
    else minLoop v xs a q

/-- `VIPlanner::backup` (viplanner.cpp:218-257); the second component is the static variable `g_belldelta` -/
def backup (env : VEnv) (goal s : Int) (p : St) (bell : ℚ) : St × ℚ :=
  if s = goal then ({ p with best := updI p.best s none, v := updI p.v s 0 }, bell)
  else
    let r := minLoop p.v (env.acts s) none INFINITECOST
    ({ p with best := updI p.best s r.1, v := updI p.v s r.2 },
      if (p.best s).isNone = true then INFINITECOST
      else if bell < |p.v s - r.2| then |p.v s - r.2| else bell)

/-- the loop over the outcomes of the best action (viplanner.cpp:343-352); the work list has its top (the end of the vector) first -/
def pushLoop : List (Int × Int × ℚ) → St → List Int → St × List Int
  | [], p, wl => (p, wl)
  | (t, _, _) :: os, p, wl =>
    if p.iter t ≠ p.iteration then pushLoop os { p with iter := updI p.iter t p.iteration } (t :: wl)
    else pushLoop os p wl

/-- the loop over `aind` (viplanner.cpp:339-353): the body does not depend on `aind`, it is performed once for each action of the state -/
def pushRep (a : Option Action) : Nat → St → List Int → St × List Int
  | 0, p, wl => (p, wl)
  | n + 1, p, wl =>
    match a with
    | none => pushRep a n p wl
    | some a' => let r := pushLoop a'.outs p wl; pushRep a n r.1 r.2

/-- the loop of `perform_iteration_forward` (viplanner.cpp:326-354) with a budget of state expansions (`none`: still running) -/
def passLoop (env : VEnv) (goal : Int) : Nat → St → ℚ → List Int → Option (St × ℚ)
  | _, p, b, [] => some (p, b)
  | 0, _, _, _ :: _ => none
  | n + 1, p, b, s :: wl =>
    let r := backup env goal s p b
    let q := pushRep (r.1.best s) (env.acts s).length r.1 wl
    passLoop env goal n q.1 r.2 q.2

/-- one pass of the main loop (viplanner.cpp:387-390): `iteration++`, `g_belldelta = 0`, `perform_iteration_forward` (316-355) -/
def pass (env : VEnv) (start goal : Int) (fuel : Nat) (p : St) : Option (St × ℚ) :=
  passLoop env goal fuel { p with iteration := p.iteration + 1 } 0 [start]

/-- the main loop (viplanner.cpp:386-396); `clk k` is the outcome of the time test before the `k`-th pass; first argument: budget of passes -/
def iterate (env : VEnv) (start goal : Int) (clk : Nat → Bool) (fuel : Nat) : Nat → Nat → St → ℚ → Option (St × ℚ)
  | 0, _, _, _ => none
  | n + 1, k, p, b =>
    if clk k = true ∧ b > ERRDELTA then
      match pass env start goal fuel p with
      | none => none
      | some (p', b') => iterate env start goal clk fuel n (k + 1) p' b'
    else some (p, b)

/-- the loop of `PrintPolicy` (viplanner.cpp:130-187), without the printing: the states of `PolicyforEvaluation` so far, marks, work list -/
def polLoop (goal : Int) : Nat → List State → St → List Int → Option (List State × St)
  | _, m, p, [] => some (m, p)
  | 0, _, _, _ :: _ => none
  | n + 1, m, p, s :: wl =>
    if s = goal then polLoop goal n (m ++ [⟨s, [], []⟩]) p wl
    else
      match p.best s with
      | none => polLoop goal n (m ++ [⟨s, [], []⟩]) p wl
      | some a =>
        let q := pushLoop a.outs p wl
        polLoop goal n (m ++ [⟨s, [a], []⟩]) q.1 q.2

/-- the policy built by `PrintPolicy` (viplanner.cpp:121-187) -/
def policyOf (start goal : Int) (fuel : Nat) (p : St) : Option (List State × St) :=
  polLoop goal fuel [] { p with iteration := p.iteration + 1, iter := updI p.iter start (p.iteration + 1) } [start]

/-- result of `replan`: the state of the planner, the static variable, the returned number, the solution vector, and the policy with its evaluation -/
structure Res where
  st : St
  bell : ℚ
  ret : Int
  sol : List Int
  policy : List State
  eval : Except EvErr EvRes

/-- `VIPlanner::replan` (viplanner.cpp:368-410) with `InitializePlanner` (357-364): `bell` is the static `g_belldelta` before
the call, `sol` the caller's vector; `bCycles` is false before EvaluatePolicy (127) -/
def replan (env : VEnv) (start goal : Int) (clk : Nat → Bool) (fuel : Nat) (p : St) (bell : ℚ) (sol : List Int) : Option Res :=
  match iterate env start goal clk fuel fuel 0 { p with iteration := 0 } bell with
  | none => none
  | some (p1, b1) =>
    match policyOf start goal fuel p1 with
    | none => none
    | some (m, p2) => some ⟨p2, b1, 1, sol, m, evaluate m start goal false fuel⟩

end VI
end Sbpl
