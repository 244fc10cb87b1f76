import Verif.Model.Nav2D
import Verif.Model.ARA
/-!
# `EnvironmentNAV2D` as seen by a planner

The environment creates state IDs on demand.  Over a whole planning run this is a numbering of map cells, fixed in
hindsight; `navPEnv` is the environment with such a numbering `num` (and its inverse `den`) given in advance.  The
theorem `Nav2DProps.navPEnv_succs` relates it to `Nav2D.getSuccs`: with `num` agreeing with the table, the answers are
identical lists of IDs and costs.
-/

namespace Sbpl

/-- the action loops of GetSuccs / GetPreds with a fixed numbering (environment_nav2D.cpp:885-923, 959-1005) -/
def navCollect (num : Int × Int → Nat) (f : Act → Except EnvErr (Option ((Int × Int) × Nat))) (as : List Act) :
    List (Nat × Nat) :=
  as.filterMap (fun a => match f a with
    | .ok (some (k, c)) => some (num k, c)
    | _ => none)

/-- `EnvironmentNAV2D` with a fixed numbering of the cells -/
def navPEnv (c : NavCfg) (num : Int × Int → Nat) (den : Nat → Option (Int × Int)) : PEnv where
  succs gl s := if s = gl then [] else match den s with
    | none => []
    | some p => navCollect num (c.succAct p.1 p.2) c.acts
  preds _ t := match den t with
    | none => []
    | some p => if c.grid p.1 p.2 ≥ c.obs then [] else navCollect num (c.predAct p.1 p.2 (c.grid p.1 p.2)) c.acts
  hGoal gl s := match den s, den gl with
    | some p, some q => Nav2D.eucl p q
    | _, _ => 0
  hStart s0 s := match den s0, den s with
    | some p, some q => Nav2D.eucl p q
    | _, _ => 0

end Sbpl
