import Verif.Model.Basic
/-!
# `computeDistancestoNonfreeAreas` (src/utils/utils.cpp:471-742)

Distances are exact multiples of 1/1000 of a cell (the code has floats 1.0 and 1.414), so floating-point rounding is not modelled.  The two output arrays are functions; their
contents before the call are arbitrary (the code does not initialise them).
-/

namespace Sbpl.Dist

/-- a two-dimensional array -/
abbrev Arr := Int → Int → Nat

/-- `A[x][y] = v` -/
def set2 (A : Arr) (x y : Int) (v : Nat) : Arr := fun a b => if a = x ∧ b = y then v else A a b

/-- the map and its obstacle threshold -/
structure Map where
  G : Int → Int → Nat
  W : Nat
  H : Nat
  obsthresh : Nat

/-- neighbours with their distances: down, left to right (lines 506-513, 558-561) -/
def downLR : List (Int × Int × Nat) := [(-1, -1, 1414), (-1, 0, 1000), (-1, 1, 1414), (0, -1, 1000)]
/-- down, right to left (lines 520-527, 563-566) -/
def downRL : List (Int × Int × Nat) := [(-1, -1, 1414), (-1, 0, 1000), (-1, 1, 1414), (0, 1, 1000)]
/-- up, right to left (lines 534-541, 568-571) -/
def upRL : List (Int × Int × Nat) := [(1, -1, 1414), (1, 0, 1000), (1, 1, 1414), (0, 1, 1000)]
/-- up, left to right (lines 548-555, 573-576) -/
def upLR : List (Int × Int × Nat) := [(1, -1, 1414), (1, 0, 1000), (1, 1, 1414), (0, -1, 1000)]

/-- nbrx < 0 || nbrx >= width_x || nbry < 0 || nbry >= height_y -/
def Map.outside (m : Map) (x y : Int) : Bool := decide (x < 0 ∨ (m.W : Int) ≤ x ∨ y < 0 ∨ (m.H : Int) ≤ y)

/-- one iteration of the loop over the neighbours (lines 603-622; copies at 648-667, 685-704, 717-736); the pair is (mindisttoObs, mindisttoNonfree) -/
def Map.nbr (m : Map) (x y : Int) (obs non : Arr) (v : Nat × Nat) (d : Int × Int × Nat) : Nat × Nat :=
  let nx := x + d.1
  let ny := y + d.2.1
  let dO := if m.outside nx ny then d.2.2 else d.2.2 + obs nx ny
  let dN := if m.outside nx ny then d.2.2 else d.2.2 + non nx ny
  (if dO < v.1 then dO else v.1, if dN < v.2 then dN else v.2)

/-- the body for one cell in the first pass (lines 588-626, 633-671) -/
def Map.downCell (m : Map) (dirs : List (Int × Int × Nat)) (x : Int) (A : Arr × Arr) (y : Int) : Arr × Arr :=
  if m.obsthresh ≤ m.G x y then (set2 A.1 x y 0, set2 A.2 x y 0)
  else
    let maxDist := 1000 * min m.W m.H
    let v := dirs.foldl (m.nbr x y A.1 A.2) (maxDist, if 0 < m.G x y then 0 else maxDist)
    (set2 A.1 x y v.1, set2 A.2 x y v.2)

/-- the body for one cell in the second pass (lines 680-707, 712-739) -/
def Map.upCell (m : Map) (dirs : List (Int × Int × Nat)) (x : Int) (A : Arr × Arr) (y : Int) : Arr × Arr :=
  let v := dirs.foldl (m.nbr x y A.1 A.2) (A.1 x y, A.2 x y)
  (set2 A.1 x y v.1, set2 A.2 x y v.2)

/-- 0, 1, ..., n - 1 -/
def asc (n : Nat) : List Int := (List.range n).map (fun (k : Nat) => (k : Int))
/-- n - 1, ..., 0 -/
def desc (n : Nat) : List Int := (List.range n).map (fun (k : Nat) => (n : Int) - 1 - k)

/-- a row of the first pass (lines 583-673) -/
def Map.downRow (m : Map) (A : Arr × Arr) (x : Int) : Arr × Arr :=
  if x % 2 = 0 then (asc m.H).foldl (m.downCell downLR x) A else (desc m.H).foldl (m.downCell downRL x) A
/-- a row of the second pass (lines 677-741) -/
def Map.upRow (m : Map) (A : Arr × Arr) (x : Int) : Arr × Arr :=
  if x % 2 = 0 then (desc m.H).foldl (m.upCell upRL x) A else (asc m.H).foldl (m.upCell upLR x) A

/-- the function: (disttoObs_incells, disttoNonfree_incells), in thousandths of a cell -/
def Map.compute (m : Map) (A : Arr × Arr) : Arr × Arr := (desc m.W).foldl m.upRow ((asc m.W).foldl m.downRow A)

end Sbpl.Dist
