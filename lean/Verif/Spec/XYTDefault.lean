import Verif.Spec.XYT
import Verif.Model.XYTPrim
import Mathlib.Analysis.SpecialFunctions.Trigonometric.Basic
/-! # Specification vocabulary for the lattice without motion primitives -/

namespace Sbpl.XSpec
open UtilsSpec XEnv

/-- one coordinate of the step in a direction whose cosine (or sine) is `v` -/
def StepOf (v : ℝ) (d : Int) : Prop := (1 / 2 ≤ v → d = 1) ∧ (v ≤ -(1 / 2) → d = -1) ∧ (-(1 / 2) < v → v < 1 / 2 → d = 0)

/-- the step to the neighbouring cell in direction `a` -/
def StepTo (a : ℚ) (d : Int × Int) : Prop := StepOf (Real.cos a) d.1 ∧ StepOf (Real.sin a) d.2

/-- The moves from heading `t`: the displacement, the new heading `e` (-1 for a turn below heading 0) and the basic cost.
* `go`: turn by at most one heading, then step in the direction of the new heading; the cost is the time for the distance in ms, rounded up.
* `turn`: turn by one heading; the cost is the time to turn by 45 degrees in ms, rounded down, whatever the angle between two headings. -/
inductive DMove (s : Setup) (vel tt : ℚ) (t : Int) : Int × Int → Int → Nat → Prop
  | go (k : Int) {e : Int} {d : Int × Int} {b : Nat} : -1 ≤ k → k ≤ 1 → e = (if t + k = s.T then 0 else t + k) → StepTo (e * (2 * Utils.PI_CONST / s.T)) d →
      (∀ n : Nat, b ≤ n ↔ ((1000 * s.cs / vel : ℚ) : ℝ) * Real.sqrt ((d.1 * d.1 + d.2 * d.2 : Int) : ℝ) ≤ n) → DMove s vel tt t d e b
  | turn (k : Int) {e : Int} {b : Nat} : k = 1 ∨ k = -1 → IsResidue (t + k) s.T e → (∀ n : Nat, n ≤ b ↔ (n = 0 ∨ (n : ℚ) ≤ 1000 * tt)) → DMove s vel tt t (0, 0) e b

/-- With cell costs `grid` there is a move from state `p` to state `q` at cost `c`: the cell of `p` is a free map cell, the cell of `q` too, and is below the inscribed threshold;
if the robot is a polygon and the circumscribed threshold is not positive, the cells covered at the end but not at the source are free map cells -/
structure DEdge (s : Setup) (vel tt : ℚ) (grid : Int → Int → Nat) (p q : XKey) (c : Nat) : Prop where
  src : InRange s p ∧ grid p.1 p.2.1 < s.obs
  dst : InMap s (q.1, q.2.1) ∧ grid q.1 q.2.1 < s.obs ∧ grid q.1 q.2.1 < s.inscr
  move : ∃ e b, DMove s vel tt p.2.2 (q.1 - p.1, q.2.1 - p.2.1) e b ∧ IsResidue e s.T q.2.2 ∧ c = b * (max (grid p.1 p.2.1) (grid q.1 q.2.1) + 1) ∧
    (s.poly = true → s.circ = 0 → ∀ r ∈ s.foot ((q.1 - p.1 : Int) * s.cs + s.cs / 2, (q.2.1 - p.2.1 : Int) * s.cs + s.cs / 2, e * (2 * Utils.PI_CONST / s.T)),
      r ∉ s.foot (s.cs / 2, s.cs / 2, p.2.2 * (2 * Utils.PI_CONST / s.T)) → InMap s (shift p r) ∧ grid (shift p r).1 (shift p r).2 < s.obs)
  finite : c < INFINITECOST

/-- consecutive states of the list are joined by moves, of total cost `n` -/
inductive DPath (s : Setup) (vel tt : ℚ) (grid : Int → Int → Nat) : List XKey → Nat → Prop
  | single (p : XKey) : DPath s vel tt grid [p] 0
  | cons {p q : XKey} {c n : Nat} {l : List XKey} : DEdge s vel tt grid p q c → DPath s vel tt grid (q :: l) n → DPath s vel tt grid (p :: q :: l) (c + n)

end Sbpl.XSpec
