import Verif.Model.XYTAngles
import Verif.Spec.XYT
import Verif.Spec.XYTPrim
import Verif.Spec.Files
/-!
# Specification vocabulary: lattices whose headings are given by a list of angles
-/

namespace Sbpl.XAngSpec
open Sbpl XEnv XSpec FileSpec

/-- heading `i` of the list is one of those nearest to the angle `th`, by rotation -/
def Nearest (T : Nat) (dirs : List ℚ) (th : ℚ) (i : Nat) : Prop :=
  i < T ∧ ∃ a d, dirs[i]? = some a ∧ Rotation th a d ∧ ∀ (j : Nat) (b d' : ℚ), dirs[j]? = some b → Rotation th b d' → d ≤ d'

/-- an environment with a list of headings after InitializeEnv and any sequence of calls; coordinates handed to GetStateFromCoord are those of cells of the map and of headings -/
def HistSet (s : Setup) (dirs : List ℚ) (ops : List Op) (st : XEnv) : Prop :=
  SetupOk s ∧ HeadingSet s.T dirs ∧ (∀ k, Op.getState k ∈ ops → InRange s k) ∧ ∃ st0, init s = .ok st0 ∧ st0.runSet dirs ops = some st

/-- the words of a primitive in a file with a list of headings: one more word, the turning radius -/
def primSetWords (id st x y th m r n : Word) (poses : List (Word × Word × Word)) : List Word :=
  ["primID:".toList, id, "startangle_c:".toList, st, "endpose_c:".toList, x, y, th, "additionalactioncostmult:".toList, m, "turning_radius:".toList, r, "intermediateposes:".toList, n] ++
  poses.flatMap (fun p => [p.1, p.2.1, p.2.2])

/-- `angle:0`, the first angle, `angle:1`, the second angle, ... -/
def angleWords : Nat → List Word → List Word
  | _, [] => []
  | i, w :: ws => ("angle:" ++ toString i).toList :: w :: angleWords (i + 1) ws

/-- the words of a file of motion primitives with a list of headings: cell size, minimal turning radius, number of headings, the angles, number of primitives, the primitives -/
def primSetFile (cs rad T n : Word) (angles : List Word) (prims : List Word) : List Word :=
  ["resolution_m:".toList, cs, "min_turning_radius_m:".toList, rad, "numberofangles:".toList, T] ++ angleWords 0 angles ++ ["totalnumberofprimitives:".toList, n] ++ prims

end Sbpl.XAngSpec
