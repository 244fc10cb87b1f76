import Verif.Model.ARA
/-!
# How often the planner was asked to plan
-/

namespace Sbpl.CounterSpec
open Sbpl

/-- number of `replan` calls in a history -/
def replans : List ARA.Op → Nat
  | [] => 0
  | .replan _ :: ops => replans ops + 1
  | _ :: ops => replans ops

/-- number of search passes allowed by the clock, all `replan` calls of a history together -/
def passes : List ARA.Op → Nat
  | [] => 0
  | .replan bs :: ops => passes ops + bs.length
  | _ :: ops => passes ops

end Sbpl.CounterSpec
