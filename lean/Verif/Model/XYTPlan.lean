import Verif.Model.XYTHeur
import Verif.Model.ARA
/-!
# `EnvironmentNAVXYTHETALAT` as seen by a planner

The environment creates state IDs on demand.  Over a whole planning run this is a numbering of the states, fixed in hindsight; `xytPEnv` is the environment with such a
numbering `num` (and its inverse `den`) given in advance.  `XYTARAProps.xytPEnv_succs` and `XYTARAProps.xytPEnv_preds` relate it to GetSuccs and GetPreds: with `num`
agreeing with the table, the answers are identical lists of IDs and costs.  `hg g` and `hs p` are the tables of GetGoalHeuristic and GetStartHeuristic while `g` is the goal
and `p` the start of the environment.
-/

namespace Sbpl

/-- the environment with a fixed numbering (environment_navxythetalat.cpp:2757-2886 for the lists, 3141-3181 for the heuristics) -/
def xytPEnv (c : XCfg) (num : XKey → Nat) (den : Nat → Option XKey) (hg hs : XKey → XKey → Int) : PEnv where
  succs gl s := if s = gl then [] else match den s with
    | none => []
    | some p => (c.acts p.2.2).filterMap (fun a => (c.succAct p a).map (fun r => (num r.1, r.2)))
  preds _ t := match den t with
    | none => []
    | some q => (c.preds q.2.2).filterMap (fun a => (c.predAct q a).map (fun r => (num r.1, r.2)))
  hGoal gl s := match den gl, den s with
    | some g, some p => (hg g p).toNat
    | _, _ => 0
  hStart s0 s := match den s0, den s with
    | some g, some p => (hs g p).toNat
    | _, _ => 0

/-- the heuristic that a newly initialised environment computes with a 2D search from the cell of `o` (goal or start) towards the cell of `e` -/
def freshHeur (s : XEnv.Setup) (vel : ℚ) (dyn : Nat) (grid : Int → Int → Nat) (e o p : XKey) : Int :=
  match (XHeur.newSearch s dyn).search grid s.inscr (o.1, o.2.1) (e.1, e.2.1) .twoTimes with
  | .ok (_, b) => divVel (max (b.lowerBound p.1 p.2.1) (floorMulSqrt (1000 * s.cs) (sqDist (p.1, p.2.1) (o.1, o.2.1)))) vel
  | .error _ => 0

end Sbpl
