import Mathlib.Algebra.Order.Ring.Abs
/-! # Specification of the distance transform -/

namespace Sbpl.DistSpec

/-- 8-connected distance of two cells in thousandths of a cell: diagonal steps of 1.414, straight steps of 1 -/
def octile (p q : Int × Int) : Nat :=
  let a := (p.1 - q.1).natAbs
  let b := (p.2 - q.2).natAbs
  1414 * min a b + 1000 * (max a b - min a b)

/-- the cell is in the map -/
def Inside (W H : Nat) (p : Int × Int) : Prop := 0 ≤ p.1 ∧ p.1 < W ∧ 0 ≤ p.2 ∧ p.2 < H

/-- `v` is the distance of `p` to the nearest cell that is outside of the map or satisfies `Z` -/
def IsNearest (W H : Nat) (Z : Int × Int → Prop) (p : Int × Int) (v : Nat) : Prop :=
  (∃ o, (¬ Inside W H o ∨ Z o) ∧ octile p o = v) ∧ ∀ o, (¬ Inside W H o ∨ Z o) → v ≤ octile p o

end Sbpl.DistSpec
