import Verif.Model.CList
/-!
# Specification of `CList`: an ordered set, most recently inserted member first
-/

namespace Sbpl
namespace ListSpec

/-- The member following `s`, if any. -/
def after (m : List Nat) (s : Nat) : Option Nat := ((m.dropWhile (fun t => t != s)).drop 1).head?

/-- Answer and effect of a call on the ordered set `m`. -/
def step (m : List Nat) : LOp → List Nat × LOut
  | .insert s =>
    if m.length ≥ 5000000 then (m, .err .full)
    else if s ∈ m then (m, .err .alreadyIn)
    else (s :: m, .done)
  | .remove s => if s ∈ m then (m.erase s, .done) else (m, .err .notIn)
  | .makeEmpty => ([], .done)
  | .inList s => (m, .bool (decide (s ∈ m)))
  | .getFirst => (m, .state m.head?)
  | .getLast => (m, .state m.getLast?)
  | .getNext s => if s ∈ m then (m, .state (after m s)) else (m, .err .ub)
  | .isEmpty => (m, .bool (decide (m = [])))
  | .isFull => (m, .bool (decide (m.length ≥ 5000000)))

def run (m : List Nat) : List LOp → List Nat × List LOut
  | [] => (m, [])
  | op :: ops =>
    let r := step m op
    let rest := run r.1 ops
    (rest.1, r.2 :: rest.2)

end ListSpec
end Sbpl
