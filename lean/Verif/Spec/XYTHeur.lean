import Verif.Model.XYTHeur
import Verif.Spec.XYT
import Verif.Spec.GridSearch
/-!
# Specification vocabulary for the heuristics of the (x, y, theta) lattice
-/

namespace Sbpl.XSpec
open XEnv XHeur

/-- a sequence of lattice transitions leads from state `p` to state `q` at total cost `n` -/
inductive LWalk (s : Setup) (grid : Int → Int → Nat) (p : XKey) : XKey → Nat → Prop
  | nil : LWalk s grid p p 0
  | snoc {b t : XKey} {n c : Nat} (m : MPrim) : LWalk s grid p b n → Edge s grid m b t c → LWalk s grid p t (n + c)

/-- `v` is ⌊r * distance⌋ for the distance of cells `p` and `q` -/
def FloorDist (r : ℚ) (p q : Int × Int) (v : Nat) : Prop :=
  (v : ℚ) * v ≤ r * r * ((p.1 - q.1) * (p.1 - q.1) + (p.2 - q.2) * (p.2 - q.2) : Int) ∧
  r * r * ((p.1 - q.1) * (p.1 - q.1) + (p.2 - q.2) * (p.2 - q.2) : Int) < ((v : ℚ) + 1) * (v + 1)

/-- no primitive is cheaper than the time its displacement takes at speed `vel` (in milliseconds; squared) -/
def NotTooFast (s : Setup) (vel : ℚ) : Prop :=
  ∀ m ∈ s.prims, (1000 * s.cs) * (1000 * s.cs) * (m.dX * m.dX + m.dY * m.dY : Int) ≤ (m.cost * vel) * (m.cost * vel)

/-- The cells of the primitive can be followed by moves of the 2D search: from (0, 0) to `q` by moves of total length `n` (millimetres, each rounded as in the
2D search) that touch only the end cell, cells visited by the centre of the robot, and the source cell if its cost has to be below the inscribed threshold. -/
inductive Chain (s : Setup) (m : MPrim) : Int × Int → Nat → Prop
  | nil : Chain s m (0, 0) 0
  | snoc {a b : Int × Int} {n l : Nat} : Chain s m a n →
      GridSpec.moveLen (1000 * s.cs).num.toNat (1000 * s.cs).den (b.1 - a.1) (b.2 - a.2) = some l →
      (∀ r ∈ GridSpec.touched a (b.1 - a.1) (b.2 - a.2), r = (m.dX, m.dY) ∨ Centre s m r ∨ (r = (0, 0) ∧ s.obs ≤ s.inscr)) → Chain s m b (n + l)

/-- every primitive can be followed by 2D moves in no more time than it takes -/
def Followable (s : Setup) (vel : ℚ) : Prop :=
  ∀ m ∈ s.prims, ∃ n, Chain s m (m.dX, m.dY) n ∧ (n : ℚ) ≤ m.cost * vel

/-- the calls of a history that concern the environment proper -/
def calls (ops : List HOp) : List Op := ops.filterMap (fun o => match o with | .call op => some op | .ensure _ => none)

/-- `h` is the environment with its searches after initialisation and the calls `ops`, none of which was undefined behaviour or raised an exception.
The cells are at least one millimetre wide, and the inscribed threshold is at most 254. -/
structure HHist (s : Setup) (vel : ℚ) (dyn : Nat) (ops : List HOp) (h : XHeur) : Prop where
  setup_ok : SetupOk s
  vel_pos : 0 < vel
  cell : 1 ≤ 1000 * s.cs
  thr : s.inscr ≤ 254
  calls_ok : ∀ op, HOp.call op ∈ ops → CallOk s op
  ran : ∃ h0, XHeur.init s vel dyn = .ok h0 ∧ h0.run ops = some h

/-- calls that change costs, start or goal -/
def Changes : Op → Prop
  | .updateCost _ _ _ => True
  | .setMap _ => True
  | .setStart _ _ _ => True
  | .setGoal _ _ _ => True
  | _ => False

/-- EnsureHeuristicsUpdated(goal) was called, and costs, start and goal were not changed since -/
def UpToDate (goal : Bool) (ops : List HOp) : Prop :=
  ∃ a b, ops = a ++ .ensure goal :: b ∧ ∀ op, HOp.call op ∈ b → ¬ Changes op

end Sbpl.XSpec
