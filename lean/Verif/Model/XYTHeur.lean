import Mathlib.Data.Nat.Sqrt
import Verif.Model.XYT
import Verif.Model.GridBucket
/-!
# The heuristics of `EnvironmentNAVXYTHETALAT` (src/discrete_space_information/environment_navxythetalat.cpp)

Modelled: ComputeHeuristicValues, EnsureHeuristicsUpdated, GetFromToHeuristic, GetGoalHeuristic, GetStartHeuristic, and how the other calls of the
environment invalidate the two 2D searches.  Simplifications: as in `Verif.Model.XYT` and `Verif.Model.GridBucket`; `blocksize` has its default value
1; `double` (and the `float` cell size of the 2D search) is exact, in particular square roots are; `int` does not overflow; the object after an exception in a
2D search is not modelled.
-/

namespace Sbpl

/-- ⌊r √k⌋ for a rational `r ≥ 0` -/
def floorMulSqrt (r : ℚ) (k : Nat) : Nat := Nat.sqrt (r.num.toNat * r.num.toNat * k) / r.den

/-- the squared distance of two cells (environment_navxythetalat.cpp:1623) -/
def sqDist (p q : Int × Int) : Nat := ((p.1 - q.1) * (p.1 - q.1) + (p.2 - q.2) * (p.2 - q.2)).toNat

/-- `(int)(x / vel)` for an integer `x` (environment_navxythetalat.cpp:3159, 3180): truncation towards zero -/
def divVel (x : Int) (vel : ℚ) : Int := if 0 ≤ x then ⌊(x : ℚ) / vel⌋ else ⌈(x : ℚ) / vel⌉

/-- the environment together with grid2Dsearchfromstart, grid2Dsearchfromgoal and nominalvel_mpersecs -/
structure XHeur where
  env : XEnv
  hs : GridB
  hg : GridB
  vel : ℚ

namespace XHeur

/-- a new 2D search on the map of the environment, with sliding buckets (environment_navxythetalat.cpp:1800-1811); the cell size in millimetres is
the fraction `1000 * cs`; `dyn` is `bucketsize` -/
def newSearch (s : XEnv.Setup) (dyn : Nat) : GridB :=
  GridB.init s.W.toNat s.H.toNat 1 (1000 * s.cs).num.toNat (1000 * s.cs).den dyn

/-- InitializeEnv with ComputeHeuristicValues (environment_navxythetalat.cpp:2010-2026, 1795-1814) -/
def init (s : XEnv.Setup) (vel : ℚ) (dyn : Nat) : Except XErr XHeur :=
  match XEnv.init s with
  | .error e => .error e
  | .ok st => .ok { env := st, hs := newSearch s dyn, hg := newSearch s dyn, vel := vel }

/-- EnsureHeuristicsUpdated (environment_navxythetalat.cpp:1770-1793) -/
def ensure (h : XHeur) (goal : Bool) : Except GBErr XHeur :=
  if h.env.needStart = true ∧ goal = false then
    match h.hs.search h.env.cfg.grid h.env.cfg.inscr (h.env.cfg.start.1, h.env.cfg.start.2.1) (h.env.cfg.goal.1, h.env.cfg.goal.2.1) .twoTimes with
    | .error e => .error e
    | .ok r => .ok { h with hs := r.2, env := { h.env with needStart := false } }
  else if h.env.needGoal = true ∧ goal = true then
    match h.hg.search h.env.cfg.grid h.env.cfg.inscr (h.env.cfg.goal.1, h.env.cfg.goal.2.1) (h.env.cfg.start.1, h.env.cfg.start.2.1) .twoTimes with
    | .error e => .error e
    | .ok r => .ok { h with hg := r.2, env := { h.env with needGoal := false } }
  else .ok h

/-- hEuclid (environment_navxythetalat.cpp:1621-1625, 3155-3157, 3176-3178) -/
def hEuclid (h : XHeur) (p q : Int × Int) : Nat := floorMulSqrt (1000 * h.env.cfg.cs) (sqDist p q)

/-- GetFromToHeuristic (environment_navxythetalat.cpp:3114-3139) -/
def fromTo (h : XHeur) (a b : Nat) : Except XErr Nat :=
  match h.env.getCoord a, h.env.getCoord b with
  | .ok p, .ok q => .ok (floorMulSqrt (1000 * h.env.cfg.cs / h.vel) (sqDist (p.1, p.2.1) (q.1, q.2.1)))
  | _, _ => .error .badId

/-- GetGoalHeuristic (environment_navxythetalat.cpp:3141-3160) -/
def goalHeur (h : XHeur) (id : Nat) : Except XErr Int :=
  match h.env.getCoord id with
  | .error e => .error e
  | .ok p => .ok (divVel (max (h.hg.lowerBound p.1 p.2.1) (h.hEuclid (p.1, p.2.1) (h.env.cfg.goal.1, h.env.cfg.goal.2.1))) h.vel)

/-- GetStartHeuristic (environment_navxythetalat.cpp:3162-3181) -/
def startHeur (h : XHeur) (id : Nat) : Except XErr Int :=
  match h.env.getCoord id with
  | .error e => .error e
  | .ok p => .ok (divVel (max (h.hs.lowerBound p.1 p.2.1) (h.hEuclid (h.env.cfg.start.1, h.env.cfg.start.2.1) (p.1, p.2.1))) h.vel)

/-- one call: on the environment, or EnsureHeuristicsUpdated (the heuristic queries change nothing) -/
inductive HOp where
  | call (op : XEnv.Op)
  | ensure (goal : Bool)

/-- effect of a call; `none`: undefined behaviour or an exception -/
def step (h : XHeur) : HOp → Option XHeur
  | .call op => match h.env.step op with
    | none => none
    | some st => some { h with env := st }
  | .ensure goal => match h.ensure goal with
    | .error _ => none
    | .ok h' => some h'

/-- a history of calls -/
def run (h : XHeur) : List HOp → Option XHeur
  | [] => some h
  | op :: ops => match h.step op with
    | none => none
    | some h1 => run h1 ops

end XHeur
end Sbpl
