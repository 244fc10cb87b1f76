import Mathlib.Data.Rat.Floor
import Mathlib.Algebra.Order.Ring.Abs
/-! # Specification: residues, cells, digital lines -/

namespace Sbpl.UtilsSpec

/-- `r` is the residue of `t` modulo `n` -/
def IsResidue (t n r : Int) : Prop := 0 ≤ r ∧ r < n ∧ ∃ k, t = k * n + r

/-- the cell `i` (of width `cell`) containing coordinate `x`: lower boundary included -/
def InCell (x cell : ℚ) (i : Int) : Prop := i * cell ≤ x ∧ x < (i + 1) * cell

/-- different cells touching in a side or corner -/
def King (p q : Int × Int) : Prop := p ≠ q ∧ |q.1 - p.1| ≤ 1 ∧ |q.2 - p.2| ≤ 1

/-- `c` is at most half a cell away from the straight line through `p` and `q`, measured along the minor axis
(the distance is `|dx (c.y-p.y) - dy (c.x-p.x)| / max |dx| |dy|`) -/
def NearLine (p q c : Int × Int) : Prop :=
  2 * |(q.1 - p.1) * (c.2 - p.2) - (q.2 - p.2) * (c.1 - p.1)| ≤ max |q.1 - p.1| |q.2 - p.2|

/-- `c` lies in the bounding box of `p` and `q` -/
def InBox (p q c : Int × Int) : Prop :=
  min p.1 q.1 ≤ c.1 ∧ c.1 ≤ max p.1 q.1 ∧ min p.2 q.2 ≤ c.2 ∧ c.2 ≤ max p.2 q.2

/-- `l` is a digital line from `p` to `q`. -/
structure DigitalLine (p q : Int × Int) (l : List (Int × Int)) : Prop where
  first : l.head? = some p
  last : l.getLast? = some q
  length : l.length = max (q.1 - p.1).natAbs (q.2 - p.2).natAbs + 1
  connected : List.IsChain King l
  near : ∀ c ∈ l, NearLine p q c
  box : ∀ c ∈ l, InBox p q c

end Sbpl.UtilsSpec
