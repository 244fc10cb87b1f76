import Verif.Model.RobArm
import Verif.Model.ARA
/-!
# `EnvironmentROBARM` as seen by a planner

State IDs are created on demand; over a planning run this is a numbering `num` of the configurations (with inverse `den`), fixed in hindsight.  `ArmProps.armPEnv_succs`
relates the lists to GetSuccs.  `h` is the table of ComputeHeuristicValues.  The environment has only one goal (ID 1): the heuristic of any other goal is not that of the
code, where GetGoalHeuristic ignores the planner's goal.  GetPreds and GetStartHeuristic raise exceptions; a forward search does not call them.
-/

namespace Sbpl
namespace RobArm
variable {K : Type} [Field K] [LinearOrder K] [IsStrictOrderedRing K] [FloorRing K]

/-- the environment with a fixed numbering (environment_robarm.cpp:1217-1288 for the successors, 1048-1099 for the heuristic) -/
def armPEnv (c : Cfg K) (h : Nat → Nat → Nat) (num : List Nat → Nat) (den : Nat → Option (List Nat)) : PEnv where
  succs _ s := if s = goalId then [] else match den s with
    | none => []
    | some k => ((moves c.links k).filter (fun k' => match c.isValid k' with | .ok true => true | _ => false)).map fun k' =>
        (if c.endCell k' = (c.gx, c.gy) ∨ (k' = (c.links.map fun _ => 0) ∧ c.startCoord ≠ (c.links.map fun _ => 0)) then goalId else num k', 1)
  preds _ _ := []
  hGoal gl s := if gl ≠ goalId then 0 else if s = goalId then h (ind c.W (c.gx, c.gy)) (ind c.W (c.gx, c.gy)) else match den s with
    | none => 0
    | some k => h (ind c.W (c.gx, c.gy)) (ind c.W (c.endCell k))
  hStart _ _ := 0

end RobArm
end Sbpl
