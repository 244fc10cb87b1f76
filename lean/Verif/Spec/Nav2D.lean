/-!
# Specification vocabulary for 2-D grid navigation

A map is `W × H` cells with a cost for every cell; cells of cost `obs` or more are obstacles.  A robot in the
centre of a cell moves along a straight line to the centre of a nearby cell.
-/

namespace Sbpl.GridSpec

/-- The cell at offset `(cx, cy)` is touched by the straight line from the centre of cell `(0, 0)` to the centre of
cell `(dx, dy)`: some point `(p / q) * (dx, dy)`, `0 ≤ p / q ≤ 1`, of the line lies in the (closed) unit square around
`(cx, cy)`. -/
def Touched (dx dy cx cy : Int) : Prop :=
  ∃ p q : Int, 0 ≤ p ∧ p ≤ q ∧ 0 < q ∧
    (-q ≤ 2 * (p * dx - q * cx) ∧ 2 * (p * dx - q * cx) ≤ q) ∧
    (-q ≤ 2 * (p * dy - q * cy) ∧ 2 * (p * dy - q * cy) ≤ q)

/-- the moves: to the 8 neighbours, and, if 16-connected, to the 8 cells a knight's move away -/
def IsMove (is16 : Bool) (dx dy : Int) : Prop :=
  (-1 ≤ dx ∧ dx ≤ 1 ∧ -1 ≤ dy ∧ dy ≤ 1 ∧ ¬(dx = 0 ∧ dy = 0)) ∨
  (is16 = true ∧ dx * dx + dy * dy = 5)

/-- a map cell -/
def InMap (W H x y : Int) : Prop := 0 ≤ x ∧ x < W ∧ 0 ≤ y ∧ y < H

/-- The move `(dx, dy)` from `(x, y)` crosses (apart from the cell it starts in) only map cells, `m` is their maximal
cost, and none of them is an obstacle. -/
def Passable (W H : Int) (grid : Int → Int → Nat) (obs : Nat) (x y dx dy : Int) (m : Nat) : Prop :=
  (∀ cx cy, Touched dx dy cx cy → ¬(cx = 0 ∧ cy = 0) → InMap W H (x + cx) (y + cy) ∧ grid (x + cx) (y + cy) ≤ m) ∧
  (∃ cx cy, Touched dx dy cx cy ∧ ¬(cx = 0 ∧ cy = 0) ∧ grid (x + cx) (y + cy) = m) ∧
  m < obs

/-- `l` is the length `1000 * sqrt(dx² + dy²)` of the move in millimetres (cells of 1 m), rounded down. -/
def IsLength (dx dy : Int) (l : Nat) : Prop :=
  ((l : Int) * l ≤ 1000000 * (dx * dx + dy * dy)) ∧ 1000000 * (dx * dx + dy * dy) < ((l : Int) + 1) * (l + 1)

/-- There is an edge of cost `c` from cell `p` to cell `q`: `q` is one move away from `p`, the move is passable, and
`c` is the length of the move times (1 + maximal cost of the cells crossed). -/
def Edge (W H : Int) (grid : Int → Int → Nat) (obs : Nat) (is16 : Bool) (p q : Int × Int) (c : Nat) : Prop :=
  ∃ m l, IsMove is16 (q.1 - p.1) (q.2 - p.2) ∧ Passable W H grid obs p.1 p.2 (q.1 - p.1) (q.2 - p.2) m ∧
    IsLength (q.1 - p.1) (q.2 - p.2) l ∧ c = (m + 1) * l

end Sbpl.GridSpec

namespace Sbpl.GridSpec

/-- a walk over edges of the map -/
inductive GridWalk (W H : Int) (grid : Int → Int → Nat) (obs : Nat) (is16 : Bool) (a : Int × Int) : Int × Int → Nat → Prop
  | nil : GridWalk W H grid obs is16 a a 0
  | snoc {b t : Int × Int} {n c : Nat} : GridWalk W H grid obs is16 a b n → Edge W H grid obs is16 b t c →
      GridWalk W H grid obs is16 a t (n + c)

end Sbpl.GridSpec
