import Verif.Model.Fifo
/-! # Specification of a bounded first-in first-out queue -/

namespace Sbpl
namespace FifoSpec
variable {α : Type}

/-- Answer and effect of a call on the queue `l` (oldest first) of capacity `cap`. -/
def step (cap : Nat) (l : List α) : QOp α → List α × QOut α
  | .insert v => if l.length = cap then (l, .bool false) else (l ++ [v], .bool true)
  | .remove => match l with
    | [] => ([], .val none)
    | x :: rest => (rest, .val (some x))
  | .isEmpty => (l, .bool l.isEmpty)
  | .clear => ([], .done)

def run (cap : Nat) (l : List α) : List (QOp α) → List α × List (QOut α)
  | [] => (l, [])
  | op :: ops => ((run cap (step cap l op).1 ops).1, (step cap l op).2 :: (run cap (step cap l op).1 ops).2)

end FifoSpec
end Sbpl
