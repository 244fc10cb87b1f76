import Mathlib.Data.Rat.Floor
/-!
# Numeric helpers of src/include/sbpl/utils/utils.h and src/utils/utils.cpp

`int` is `Int` (no overflow), `double` is exact rational arithmetic (no rounding); `(int)x` truncates toward zero.
-/

namespace Sbpl
namespace Utils

/-- `NORMALIZEDISCTHETA(THETA, THETADIRS)` (utils.h:47-49); C's `%` truncates toward zero (`Int.tmod`). -/
def normDiscTheta (theta dirs : Int) : Int :=
  if theta ≥ 0 then theta.tmod dirs else (theta.tmod dirs + dirs).tmod dirs

/-- C's conversion of a double to int -/
def trunc (q : ℚ) : Int := if 0 ≤ q then ⌊q⌋ else ⌈q⌉

/-- `CONTXY2DISC(X, CELLSIZE)` (utils.h:51) -/
def contXY2Disc (x cell : ℚ) : Int := if x ≥ 0 then trunc (x / cell) else trunc (x / cell) - 1

/-- `DISCXY2CONT(X, CELLSIZE)` (utils.h:52) -/
def discXY2Cont (i : Int) (cell : ℚ) : ℚ := i * cell + cell / 2

/-- `PI_CONST` (utils.h:54), the decimal literal taken exactly -/
def PI_CONST : ℚ := 3141592653589793238462643383279502884 / 1000000000000000000000000000000000000

/-- `normalizeAngle` (utils.cpp:393-408); the error message does not change the result -/
def normalizeAngle (angle : ℚ) : ℚ :=
  let r := if |angle| > 2 * PI_CONST then angle - (trunc (angle / (2 * PI_CONST)) : ℚ) * 2 * PI_CONST else angle
  if r < 0 then r + 2 * PI_CONST else r

/-- `DiscTheta2Cont` (utils.cpp:376-380) -/
def discTheta2Cont (n : Int) (vals : Int) : ℚ := n * (2 * PI_CONST / vals)

/-- `ContTheta2Disc` (utils.cpp:384-388) -/
def contTheta2Disc (f : ℚ) (vals : Int) : Int :=
  trunc (normalizeAngle (f + (2 * PI_CONST / vals) / 2) / (2 * PI_CONST) * vals)

/-- `computeMinUnsignedAngleDiff` (utils.cpp:450-464) -/
def minUnsignedAngleDiff (a b : ℚ) : ℚ :=
  let d := |normalizeAngle a - normalizeAngle b|
  if d > PI_CONST then |d - 2 * PI_CONST| else d

/-! ## Bresenham lines -/

/-- `bresenham_param_t` (utils.h:61-71) -/
structure Bres where
  X1 : Int
  Y1 : Int
  X2 : Int
  Y2 : Int
  inc : Int
  usingY : Bool
  dX : Int
  dY : Int
  dTerm : Int
  incrE : Int
  incrNE : Int
  xi : Int
  yi : Int
  flipped : Bool

/-- `get_bresenham_parameters` (utils.cpp:302-343).  `fabs(dy/dx) > 1` in doubles is `|dy| > |dx|` (also for dx = 0: infinity,
or NaN if both are 0). -/
def getParams (p1x p1y p2x p2y : Int) : Bres :=
  let usingY := decide (|p2y - p1y| > |p2x - p1x|)
  let X1 := if usingY then p1y else p1x
  let Y1 := if usingY then p1x else p1y
  let X2 := if usingY then p2y else p2x
  let Y2 := if usingY then p2x else p2y
  let flipped := decide ((p2x - p1x) * (p2y - p1y) < 0)
  let Y1 := if flipped then -Y1 else Y1
  let Y2 := if flipped then -Y2 else Y2
  let inc := if X2 > X1 then 1 else -1
  let dX := X2 - X1
  let dY := Y2 - Y1
  { X1 := X1, Y1 := Y1, X2 := X2, Y2 := Y2, inc := inc, usingY := usingY, dX := dX, dY := dY,
    incrE := 2 * dY * inc, incrNE := 2 * (dY - dX) * inc, dTerm := (2 * dY - dX) * inc,
    xi := X1, yi := Y1, flipped := flipped }

/-- `get_current_point` (utils.cpp:345-357) -/
def curPoint (b : Bres) : Int × Int :=
  if b.usingY then (if b.flipped then -b.yi else b.yi, b.xi)
  else (b.xi, if b.flipped then -b.yi else b.yi)

/-- `get_next_point` (utils.cpp:359-372): `none` if it returns 0 -/
def nextPoint (b : Bres) : Option Bres :=
  if b.xi = b.X2 then none
  else
    let xi := b.xi + b.inc
    if b.dTerm < 0 ∨ (b.inc < 0 ∧ b.dTerm ≤ 0) then some { b with xi := xi, dTerm := b.dTerm + b.incrE }
    else some { b with xi := xi, dTerm := b.dTerm + b.incrNE, yi := b.yi + b.inc }

/-- The caller's loop `do { get_current_point(...); } while (get_next_point(...))` (as in
environment_robarm.cpp:845-862): the points visited, with a budget of iterations (`none`: still running). -/
def linePoints : Nat → Bres → Option (List (Int × Int))
  | 0, _ => none
  | n + 1, b =>
    match nextPoint b with
    | none => some [curPoint b]
    | some b' => (linePoints n b').map (curPoint b :: ·)

/-- the points between two cells -/
def line (fuel : Nat) (p q : Int × Int) : Option (List (Int × Int)) := linePoints fuel (getParams p.1 p.2 q.1 q.2)

end Utils
end Sbpl
