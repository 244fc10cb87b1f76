import Verif.Model.XYTPrim
import Verif.Spec.XYTPath
/-! # Specification vocabulary for motion primitives and lists of headings -/

namespace Sbpl.XSpec
open Utils

/-- `d` is the smallest rotation that takes direction `b` to direction `a` -/
def Rotation (a b d : ℚ) : Prop := (∃ k : ℤ, d = |a - b + k * (2 * PI_CONST)|) ∧ ∀ k : ℤ, d ≤ |a - b + k * (2 * PI_CONST)|

/-- a list of `T` headings: increasing angles that begin with 0, and the full turn as the last entry -/
structure HeadingSet (T : Nat) (dirs : List ℚ) : Prop where
  pos : 0 < T
  len : dirs.length = T + 1
  zero : dirs[0]? = some 0
  full : dirs[T]? = some (2 * PI_CONST)
  incr : dirs.Pairwise (· < ·)

/-- the primitive begins at the centre of cell (0, 0) and ends at the centre of its end cell -/
def RawExact (cs : ℚ) (r : RawPrim) : Prop := (∃ th, r.pts.head? = some (0, 0, th)) ∧ (∃ th, r.pts.getLast? = some (cs * r.dX, cs * r.dY, th))

/-- headings and displacements that fit into a `char`, a start heading, a positive multiplier -/
structure RawOk (T : Nat) (r : RawPrim) : Prop where
  start : 0 ≤ r.startTheta ∧ r.startTheta < T
  fits : T ≤ 128 ∧ -128 ≤ r.dX ∧ r.dX ≤ 127 ∧ -128 ≤ r.dY ∧ r.dY ≤ 127 ∧ -128 ≤ r.endTheta ∧ r.endTheta ≤ 127
  mult : 1 ≤ r.mult

end Sbpl.XSpec
