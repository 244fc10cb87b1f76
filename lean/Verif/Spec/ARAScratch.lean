import Verif.Model.ARA
/-! # Specification vocabulary: searches from scratch -/

namespace Sbpl.PlannerSpec
/-- the next `replan` searches from scratch: it is the first one, or the costs changed or force_planning_from_scratch was called since the last one -/
def scratch : Bool → List ARA.Op → Bool
  | b, [] => b
  | _, .replan _ :: ops => scratch false ops
  | _, .costsChanged _ :: ops => scratch true ops
  | _, .forceScratch :: ops => scratch true ops
  | b, _ :: ops => scratch b ops
end Sbpl.PlannerSpec
