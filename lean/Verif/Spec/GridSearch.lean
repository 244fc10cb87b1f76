import Mathlib.Algebra.Order.Ring.Abs
/-!
# Specification vocabulary for the 2D grid search

The searched graph is described on cells, independently of the tables used by the program.
-/

namespace Sbpl.GridSpec

/-- a cell `(x, y)` -/
abbrev Cell := Int × Int

/-- `v` is the cost of cell `(x, y)` of the grid downsampled by `k`: the largest cost in its block of `k * k` map cells -/
def BlockCost (k : Nat) (map : Int → Int → Nat) (c : Cell) (v : Nat) : Prop :=
  (∃ i j : Nat, i < k ∧ j < k ∧ v = map (c.1 * k + i) (c.2 * k + j)) ∧
  ∀ i j : Nat, i < k → j < k → map (c.1 * k + i) (c.2 * k + j) ≤ v

/-- the cells a move from `p` by `(dx, dy)` touches: both ends and, for a knight's move, the two cells between them -/
def touched (p : Cell) (dx dy : Int) : List Cell :=
  if |dx| = 2 then [p, (p.1 + dx / 2, p.2), (p.1 + dx / 2, p.2 + dy), (p.1 + dx, p.2 + dy)]
  else if |dy| = 2 then [p, (p.1, p.2 + dy / 2), (p.1 + dx, p.2 + dy / 2), (p.1 + dx, p.2 + dy)]
  else [p, (p.1 + dx, p.2 + dy)]

/-- length in whole millimetres of a move, for cells of `mm / den` millimetres: straight, diagonal (1.414) and knight's (2.236)
moves; `none`: not a move -/
def moveLen (mm den : Nat) (dx dy : Int) : Option Nat :=
  if |dx| + |dy| = 1 then some (mm / den)
  else if |dx| = 1 ∧ |dy| = 1 then some (mm * 1414 / (den * 1000))
  else if |dx| + |dy| = 3 ∧ |dx| ≤ 2 ∧ |dy| ≤ 2 then some (mm * 2236 / (den * 1000))
  else none

/-- a grid of `W * H` cells with its cost function, obstacle threshold and cell size -/
structure Map where
  W : Nat
  H : Nat
  cost : Cell → Nat
  thr : Nat
  mm : Nat
  den : Nat

def Map.Inside (m : Map) (p : Cell) : Prop := 0 ≤ p.1 ∧ 0 ≤ p.2 ∧ p.1 < m.W ∧ p.2 < m.H

/-- `m.Move p q c`: the robot can move from cell `p` to cell `q` at cost `c`: the length of the move times one plus the cost `v`
of the most expensive cell touched, which must be below the threshold -/
def Map.Move (m : Map) (p q : Cell) (c : Nat) : Prop :=
  m.Inside p ∧ m.Inside q ∧ ∃ len v, moveLen m.mm m.den (q.1 - p.1) (q.2 - p.2) = some len ∧
    (∃ r ∈ touched p (q.1 - p.1) (q.2 - p.2), v = m.cost r) ∧ (∀ r ∈ touched p (q.1 - p.1) (q.2 - p.2), m.cost r ≤ v) ∧
    v < m.thr ∧ c = (v + 1) * len

/-- `m.Way p q n`: a sequence of moves leads from `p` to `q` at total cost `n` -/
inductive Map.Way (m : Map) (p : Cell) : Cell → Nat → Prop
  | nil : Way m p p 0
  | snoc {b t : Cell} {n c : Nat} : Way m p b n → m.Move b t c → Way m p t (n + c)

/-- `v` is the cost of a cheapest way, capped at `cap` (also when there is no way) -/
def Map.Dist (m : Map) (cap : Nat) (p q : Cell) (v : Int) : Prop :=
  v ≤ cap ∧ (v = cap ∨ ∃ n : Nat, v = n ∧ m.Way p q n) ∧ ∀ n, m.Way p q n → v ≤ n

end Sbpl.GridSpec
