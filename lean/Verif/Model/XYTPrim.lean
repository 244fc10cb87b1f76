import Verif.Model.XYT
import Mathlib.Data.Real.Sqrt
/-!
# Motion primitives of `EnvironmentNAVXYTHETALATTICE` (src/discrete_space_information/environment_navxythetalat.cpp)

Modelled: the check of the end of a primitive in ReadinMotionPrimitive, the cost of a primitive in PrecomputeActionswithCompleteMotionPrimitive, and the conversion of
headings when the angles are given by a list (bUseNonUniformAngles).
Simplifications: `double` is exact (the length of a primitive is a real number), `int` does not overflow.
-/

namespace Sbpl

/-- what ReadinMotionPrimitive reads (environment_navxythetalat.cpp:605-711), `SBPL_xytheta_mprimitive` (environment_navxythetalat.h:87-102); the heading of the end cell is
normalised (ReadinCell), and so are the angles of the poses (ReadinPose) -/
structure RawPrim where
  startTheta : Int
  dX : Int
  dY : Int
  endTheta : Int
  mult : Nat
  pts : List (ℚ × ℚ × ℚ)
deriving DecidableEq

namespace XPrim
open Utils

/-- the check at the end of ReadinMotionPrimitive (environment_navxythetalat.cpp:713-745); without poses `intermptV[size - 1]` is an access outside the vector -/
def checkEnd (cs : ℚ) (T : Nat) (r : RawPrim) : Except XErr Bool :=
  match r.pts.getLast? with
  | none => .error .oob
  | some p => .ok (decide (contXY2Disc (discXY2Cont 0 cs + p.1) cs = r.dX ∧ contXY2Disc (discXY2Cont 0 cs + p.2.1) cs = r.dY ∧ contTheta2Disc p.2.2 T = r.endTheta))

/-- `linear_distance` (environment_navxythetalat.cpp:1210-1220) -/
noncomputable def linearDist : List (ℚ × ℚ × ℚ) → ℝ
  | a :: b :: l => Real.sqrt ((((b.1 - a.1) * (b.1 - a.1) + (b.2.1 - a.2.1) * (b.2.1 - a.2.1) : ℚ)) : ℝ) + linearDist (b :: l)
  | _ => 0

/-- `angular_distance` (environment_navxythetalat.cpp:1222-1225); starttheta and endtheta are `char`s -/
def angularDist (T : Nat) (r : RawPrim) : ℚ :=
  |minUnsignedAngleDiff (discTheta2Cont (toChar r.endTheta) T) (discTheta2Cont (toChar r.startTheta) T)|

/-- cost of a primitive (environment_navxythetalat.cpp:1221, 1227-1231), before the multiplier.  `tt` is timetoturn45degsinplace_secs: for `tt = 0` the quotient
(PI / 4) / tt is infinite and the angular time 0, as here. -/
noncomputable def baseCost (T : Nat) (vel tt : ℚ) (r : RawPrim) : Int :=
  ⌈1000 * max (linearDist r.pts / (vel : ℝ)) ((angularDist T r / ((PI_CONST / 4) / tt) : ℚ) : ℝ)⌉

/-- the primitive with its cost (environment_navxythetalat.cpp:1229-1233) -/
noncomputable def mkPrim (T : Nat) (vel tt : ℚ) (r : RawPrim) : MPrim :=
  { startTheta := r.startTheta, dX := r.dX, dY := r.dY, endTheta := r.endTheta, pts := r.pts, cost := (baseCost T vel tt r * r.mult).toNat }

/-- normalizeDiscAngle with a list of angles (environment_navxythetalat.cpp:509-518) -/
def normSet (T : Nat) (t : Int) : Int :=
  let t1 := if t < 0 then t + T else t
  if t1 ≥ T then t1 - T else t1

/-- DiscTheta2ContFromSet (environment_navxythetalat.cpp:545-560) -/
def discTheta2ContSet (T : Nat) (dirs : List ℚ) (t : Int) : Except XErr ℚ :=
  let t := normSet T t
  if T ≥ dirs.length then .error .badInput
  else if t > T ∨ t < 0 then .error .badInput
  else
    match dirs[t.toNat]? with
    | none => .error .oob
    | some a => .ok a

/-- the loop of ContTheta2DiscFromSet (environment_navxythetalat.cpp:570-578): the first index `i ≥ 1` whose angle is at least `theta`; `i` counts from the head of the list -/
def findBin (theta : ℚ) : Nat → List ℚ → Option Nat
  | _, [] => none
  | i, a :: l => if a ≥ theta then some i else findBin theta (i + 1) l

/-- ContTheta2DiscFromSet (environment_navxythetalat.cpp:562-603) -/
def contTheta2DiscSet (T : Nat) (dirs : List ℚ) (th : ℚ) : Except XErr Nat :=
  let theta := normalizeAngle th
  if T ≥ dirs.length then .error .badInput
  else
    match findBin theta 1 dirs.tail with
    | none => .error .badInput
    | some up =>
      match dirs[up - 1]?, dirs[up]? with
      | some lo, some hi => if |theta - lo| < |theta - hi| then .ok (up - 1) else .ok (if up = T then 0 else up)
      | _, _ => .error .oob

end XPrim
end Sbpl
