import Verif.Model.XYT
import Verif.Spec.Utils
/-!
# Specification vocabulary for (x, y, theta) lattice navigation

Everything is stated in terms of what the user hands to the environment (`XEnv.Setup`: map size, thresholds, footprint, motion primitives) and the current
costs of the cells.
-/

namespace Sbpl.XSpec
open UtilsSpec XEnv

/-- a map cell -/
def InMap (s : Setup) (q : Int × Int) : Prop := 0 ≤ q.1 ∧ q.1 < s.W ∧ 0 ≤ q.2 ∧ q.2 < s.H

/-- coordinates of a state: a map cell and one of the headings -/
def InRange (s : Setup) (k : XKey) : Prop := InMap s (k.1, k.2.1) ∧ 0 ≤ k.2.2 ∧ k.2.2 < s.T

/-- at some pose of the primitive, started at the centre of cell (0, 0), the centre of the robot is in cell `q` -/
def Centre (s : Setup) (m : MPrim) (q : Int × Int) : Prop :=
  ∃ p ∈ m.pts, q.1 = Utils.contXY2Disc (p.1 + s.cs / 2) s.cs ∧ q.2 = Utils.contXY2Disc (p.2.1 + s.cs / 2) s.cs

/-- a robot with footprint `foot` covers cell `q` at some pose of the list, but not at the first one -/
def SweptBy (foot : ℚ × ℚ × ℚ → List (Int × Int)) (poses : List (ℚ × ℚ × ℚ)) (q : Int × Int) : Prop :=
  ∃ p0 ps, poses = p0 :: ps ∧ q ∉ foot p0 ∧ ∃ p ∈ ps, q ∈ foot p

/-- the robot covers cell `q` at some pose of the primitive, but not at the first one -/
def Swept (s : Setup) (m : MPrim) (q : Int × Int) : Prop := SweptBy s.foot m.poses q

/-- `m` is the largest cost among the cells of a set, zero for the empty set -/
def MaxCost (grid : Int → Int → Nat) (S : Int × Int → Prop) (m : Nat) : Prop :=
  (∀ q, S q → grid q.1 q.2 ≤ m) ∧ (m = 0 ∨ ∃ q, S q ∧ grid q.1 q.2 = m)

/-- a cell translated by the source -/
def shift (p : XKey) (q : Int × Int) : Int × Int := (q.1 + p.1, q.2 + p.2.1)

/-- With cell costs `grid`, primitive `m` leads from state `p` to state `q` at cost `c`:
* the primitive belongs to the heading of `p`; `q` is its end;
* the cells of `p` and `q` are in the map and below the obstacle threshold, the cell of `q` and all the cells the centre of the robot visits are in the map
  and below the inscribed threshold;
* if the robot is a polygon and the centre visits a cell at or above the circumscribed threshold, all the cells swept are free map cells;
* the cost is the basic cost of the primitive times one plus the largest cost of a cell the centre visits (ends included). -/
structure Edge (s : Setup) (grid : Int → Int → Nat) (m : MPrim) (p q : XKey) (c : Nat) : Prop where
  mem : m ∈ s.prims
  heading : m.startTheta = p.2.2
  endX : q.1 = p.1 + m.dX
  endY : q.2.1 = p.2.1 + m.dY
  endT : IsResidue m.endTheta s.T q.2.2
  src : InMap s (p.1, p.2.1) ∧ grid p.1 p.2.1 < s.obs
  dst : InMap s (q.1, q.2.1) ∧ grid q.1 q.2.1 < s.obs ∧ grid q.1 q.2.1 < s.inscr
  centre : ∀ r, Centre s m r → InMap s (shift p r) ∧ grid (shift p r).1 (shift p r).2 < s.inscr
  swept : s.poly = true → (∀ v, MaxCost grid (fun z => ∃ r, Centre s m r ∧ z = shift p r) v → s.circ ≤ v) →
    ∀ r, Swept s m r → InMap s (shift p r) ∧ grid (shift p r).1 (shift p r).2 < s.obs
  cost : ∃ v, MaxCost grid (fun z => z = (p.1, p.2.1) ∨ z = (q.1, q.2.1) ∨ ∃ r, Centre s m r ∧ z = shift p r) v ∧ c = m.cost * (v + 1)
  finite : c < INFINITECOST

/-- what the user must respect: at most 128 headings, and displacements and final angles that fit into a `char` -/
structure SetupOk (s : Setup) : Prop where
  headings : s.T ≤ 128
  prims : ∀ m ∈ s.prims, -128 ≤ m.dX ∧ m.dX ≤ 127 ∧ -128 ≤ m.dY ∧ m.dY ≤ 127 ∧ -128 ≤ m.endTheta ∧ m.endTheta ≤ 127

/-- the calls considered: coordinates looked up are those of states, and SetStart / SetGoal avoid the one angle that is rounded to a heading that does not
exist (see C34) -/
def CallOk (s : Setup) : Op → Prop
  | .getState k => InRange s k
  | .setStart _ _ th => Utils.contTheta2Disc th s.T < s.T
  | .setGoal _ _ th => Utils.contTheta2Disc th s.T < s.T
  | _ => True

/-- the cost of a cell after a call: only UpdateCost and SetMap change it -/
def costStep (s : Setup) (g : Int → Int → Nat) : Op → Int → Int → Nat
  | .updateCost x y v => fun a b => if a = x ∧ b = y then v else g a b
  | .setMap map => fun x y => map (x + y * s.W)
  | _ => g

/-- the costs of the cells after a history of calls, initially those of the map handed to InitializeEnv -/
def costs (s : Setup) (ops : List Op) : Int → Int → Nat := ops.foldl (costStep s) (fun x y => s.map (x + y * s.W))

/-- the state nearest to a pose -/
def poseKey (s : Setup) (x y th : ℚ) : XKey := (Utils.contXY2Disc x s.cs, Utils.contXY2Disc y s.cs, Utils.contTheta2Disc th s.T)

instance (s : Setup) (q : Int × Int) : Decidable (InMap s q) := by unfold InMap; infer_instance

/-- the goal after a call: only SetGoal to a pose in the map changes it -/
def goalStep (s : Setup) (k : XKey) : Op → XKey
  | .setGoal x y th => if InMap s ((poseKey s x y th).1, (poseKey s x y th).2.1) then poseKey s x y th else k
  | _ => k
/-- the start after a call -/
def startStep (s : Setup) (k : XKey) : Op → XKey
  | .setStart x y th => if InMap s ((poseKey s x y th).1, (poseKey s x y th).2.1) then poseKey s x y th else k
  | _ => k
/-- the current goal -/
def goalOf (s : Setup) (ops : List Op) : XKey := ops.foldl (goalStep s) s.goal
/-- the current start -/
def startOf (s : Setup) (ops : List Op) : XKey := ops.foldl (startStep s) s.start

/-- `st` is the environment after initialisation with `s` and the calls `ops`, none of which was undefined behaviour -/
def Hist (s : Setup) (ops : List Op) (st : XEnv) : Prop :=
  SetupOk s ∧ (∀ op ∈ ops, CallOk s op) ∧ ∃ st0, init s = .ok st0 ∧ st0.run ops = some st

end Sbpl.XSpec

namespace Sbpl.XSpec
open XEnv

/-- the cells, relative to the source, whose cost a primitive is registered to depend on: source, end, and the swept cells -/
def Touched (s : Setup) (m : MPrim) (r : Int × Int) : Prop := r = (0, 0) ∨ r = (m.dX, m.dY) ∨ Swept s m r

/-- the centre of the robot only visits the source cell, the end cell and swept cells -/
def CentreTouched (s : Setup) : Prop := ∀ m ∈ s.prims, ∀ r, Centre s m r → Touched s m r

/-- two primitives of the same heading never lead to the same state -/
def EndsDistinct (s : Setup) : Prop :=
  ∀ t : Int, (s.prims.filter (fun m => decide (m.startTheta = t))).Pairwise
    (fun m m' => m.dX ≠ m'.dX ∨ m.dY ≠ m'.dY ∨ ¬ ∃ r, UtilsSpec.IsResidue m.endTheta s.T r ∧ UtilsSpec.IsResidue m'.endTheta s.T r)

end Sbpl.XSpec
