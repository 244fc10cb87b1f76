import Mathlib.Data.Rat.Defs
import Mathlib.Algebra.Order.Ring.Rat
/-!
# What a user of `EnvironmentNAV2DUU` expects

A map of `W` by `H` cells; each cell has a cost (an obstacle from the threshold on) and a probability of being an obstacle.  Independent of the model.
-/

namespace UUSpec

/-- a cell is inside the map -/
def InMap (W H : Nat) (x y : Int) : Prop := 0 ≤ x ∧ x < W ∧ 0 ≤ y ∧ y < H

/-- the cells whose state is not known, for which there is a hidden variable: the probability is neither 0 nor 1 (up to 0.00001) -/
def Unknown (unc : Int → Int → ℚ) (x y : Int) : Prop := 1 / 100000 ≤ unc x y ∧ unc x y ≤ 1 - 1 / 100000

/-- the cells `(px, py)` and `(x, y)` are two of the eight neighbours -/
def Neighbour (px py x y : Int) : Prop := |px - x| ≤ 1 ∧ |py - y| ≤ 1 ∧ (px ≠ x ∨ py ≠ y)

/-- length of the move in millimetres on cells of a metre -/
def len (px py x y : Int) : Nat := if px ≠ x ∧ py ≠ y then 1414 else 1000

/-- what is known about the cell `(x, y)`: the last reported value if there is one for its hidden variable, otherwise the value of the map -/
def current (ups : List (Int × Nat)) (h : Int) (prior : ℚ) : ℚ :=
  match ups.reverse.find? (fun v => v.1 = h) with
  | some v => v.2
  | none => prior

/-- a move from `(px, py)` to the neighbour `(x, y)` with its cost: both cells, and for a diagonal move the two cells beside it, are inside the map and below the threshold, and the cells
beside it are `clear`; the cost is that of the most expensive of these cells -/
def Move (W H obs : Nat) (grid : Int → Int → Nat) (clear : Int → Int → Prop) (px py x y : Int) (c : Nat) : Prop :=
  Neighbour px py x y ∧ InMap W H px py ∧ InMap W H x y ∧
  (∀ a b, (a = px ∨ a = x) → (b = py ∨ b = y) → ((px ≠ x ∧ py ≠ y) ∨ (a = px ∧ b = py) ∨ (a = x ∧ b = y)) → grid a b < obs) ∧
  (px ≠ x ∧ py ≠ y → clear x py ∧ clear px y) ∧
  c = ((if px ≠ x ∧ py ≠ y then max (max (grid px py) (grid x y)) (max (grid x py) (grid px y)) else max (grid px py) (grid x y)) + 1) * len px py x y

end UUSpec
