import Verif.Spec.XYTHeur
/-! # Specification vocabulary for planning on the (x, y, theta) lattice -/

namespace Sbpl.XSpec
open XEnv

/-- consecutive states of the list are joined by transitions, of total cost `n` -/
inductive LPath (s : Setup) (grid : Int → Int → Nat) : List XKey → Nat → Prop
  | single (p : XKey) : LPath s grid [p] 0
  | cons {p q : XKey} {c n : Nat} {l : List XKey} (m : MPrim) :
      Edge s grid m p q c → LPath s grid (q :: l) n → LPath s grid (p :: q :: l) (c + n)

/-- `num` numbers the states injectively and `den` is its inverse -/
structure XNumbering (s : Setup) (num : XKey → Nat) (den : Nat → Option XKey) : Prop where
  left : ∀ k, InRange s k → den (num k) = some k
  right : ∀ i k, den i = some k → num k = i ∧ InRange s k

/-- no primitive is cheaper than `m` -/
def CostAtLeast (s : Setup) (m : Nat) : Prop := ∀ p ∈ s.prims, m ≤ p.cost

end Sbpl.XSpec
