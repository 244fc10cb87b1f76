import Verif.Spec.RobArm
import Verif.Model.RobArmRand
/-!
# Specification of the random successors of the robot arm
-/

namespace Sbpl.ArmSpec
open RobArm

variable {K : Type} [Field K] [LinearOrder K] [IsStrictOrderedRing K] [FloorRing K]

/-- random choices as the code makes them: one per joint, offsets of 0 to 30 -/
def DrawOk (c : Cfg K) (d : Draw) : Prop := d.joints.length = c.links.length ∧ ∀ x ∈ d.joints, x.2 ≤ 30

def CallOk (c : Cfg K) : Call → Prop
  | .succs _ => True
  | .rand _ ds => ∀ d ∈ ds, DrawOk c d

/-- every joint has at least 30 and at most 65536 values -/
def ManyVals (c : Cfg K) : Prop := ∀ l ∈ c.links, 30 ≤ l.vals ∧ l.vals ≤ 65536

/-- the environment after initialisation and any sequence of GetSuccs and GetRandomSuccsatDistance calls -/
def ReachedR (c : Cfg K) (e : Env K) : Prop :=
  ∃ junk e0 calls, c.init junk = .ok (some e0) ∧ (∀ x ∈ calls, CallOk c x) ∧ e0.calls calls = .ok e

/-- the states of a joint's values lie within `n` steps, cyclically -/
def Within (n : Nat) (vals a b : Nat) : Prop := ∃ d, d ≤ n ∧ ((a + d) % vals = b % vals ∨ (b + d) % vals = a % vals)

end Sbpl.ArmSpec
