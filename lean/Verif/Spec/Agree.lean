import Verif.Spec.Graph
/-! # The least cost of a path -/

namespace Sbpl.GraphSpec

/-- `c` is the cost of some path from `a` to `b`, and no walk is cheaper -/
def Least (succ : Nat → List (Nat × Nat)) (a b c : Nat) : Prop :=
  (∃ p, FromTo p a b ∧ PathCost succ p c) ∧ ∀ n, Walk succ a b n → c ≤ n

end Sbpl.GraphSpec
