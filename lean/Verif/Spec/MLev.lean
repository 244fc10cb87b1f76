import Verif.Model.MLev
import Verif.Spec.XYTPlan
/-!
# Specification vocabulary for lattice navigation with additional levels

The levels are described by what the user handed to InitializeAdditionalLevels (`LevelIn`) and the costs the user gave for each level since.
-/

namespace Sbpl.XSpec
open XEnv MEnv UtilsSpec

/-- a level and the current costs of its cells -/
abbrev Lvl := LevelIn × (Int → Int → Nat)

/-- the environment of one level on its own: same map size, headings and primitives, but the footprint and thresholds of the level -/
def ofLevel (s : Setup) (l : LevelIn) : Setup := { s with foot := l.foot, poly := l.poly, inscr := l.inscr, circ := l.circ }

/-- `v` is the largest cost, at any of the levels, of a cell of the set; zero if there is none -/
def MaxOver (ls : List Lvl) (S : Int × Int → Prop) (v : Nat) : Prop :=
  (∀ l ∈ ls, ∀ q, S q → l.2 q.1 q.2 ≤ v) ∧ (v = 0 ∨ ∃ l ∈ ls, ∃ q, S q ∧ l.2 q.1 q.2 = v)

/-- the cells visited by the centre of the robot -/
def Visited (s : Setup) (m : MPrim) (p : XKey) (z : Int × Int) : Prop := ∃ r, Centre s m r ∧ z = shift p r

/-- With base costs `grid` and the additional levels `ls`, primitive `m` leads from state `p` to state `q` at cost `c`:
* it does so at the base level, where the cells of source and end, and the cells swept by the base footprint if they matter, have to be free at all levels;
* at every additional level, the end cell is below the inscribed threshold of the level; all the cells the centre visits are below this threshold and free; if the
  robot is a polygon at this level and the centre visits a cell at or above the circumscribed threshold of the level, then all the cells swept by the footprint of
  this level are free map cells at this level;
* the cost is the basic cost times one plus the largest cost of a cell the centre visits at any level (at the base level: ends included). -/
structure MEdge (s : Setup) (grid : Int → Int → Nat) (ls : List Lvl) (m : MPrim) (p q : XKey) (c : Nat) : Prop where
  mem : m ∈ s.prims
  heading : m.startTheta = p.2.2
  endX : q.1 = p.1 + m.dX
  endY : q.2.1 = p.2.1 + m.dY
  endT : IsResidue m.endTheta s.T q.2.2
  src : InMap s (p.1, p.2.1) ∧ grid p.1 p.2.1 < s.obs ∧ ∀ l ∈ ls, l.2 p.1 p.2.1 < s.obs
  dst : InMap s (q.1, q.2.1) ∧ grid q.1 q.2.1 < s.obs ∧ grid q.1 q.2.1 < s.inscr ∧ ∀ l ∈ ls, l.2 q.1 q.2.1 < s.obs ∧ l.2 q.1 q.2.1 < l.1.inscr
  centre : ∀ z, Visited s m p z → InMap s z ∧ grid z.1 z.2 < s.inscr ∧ ∀ l ∈ ls, l.2 z.1 z.2 < s.obs ∧ l.2 z.1 z.2 < l.1.inscr
  swept : s.poly = true → (∀ v, MaxCost grid (Visited s m p) v → s.circ ≤ v) →
    ∀ r, Swept s m r → InMap s (shift p r) ∧ grid (shift p r).1 (shift p r).2 < s.obs ∧ ∀ l ∈ ls, l.2 (shift p r).1 (shift p r).2 < s.obs
  sweptAt : ∀ l ∈ ls, l.1.poly = true → (∀ v, MaxCost l.2 (Visited s m p) v → l.1.circ ≤ v) →
    ∀ r, SweptBy l.1.foot m.pts r → InMap s (shift p r) ∧ l.2 (shift p r).1 (shift p r).2 < s.obs
  cost : ∃ v w, MaxCost grid (fun z => z = (p.1, p.2.1) ∨ z = (q.1, q.2.1) ∨ Visited s m p z) v ∧ MaxOver ls (Visited s m p) w ∧
    c = m.cost * (max v w + 1)
  finite : c < INFINITECOST

/-- the calls considered -/
def MCallOk (s : Setup) : MOp → Prop
  | .base op => CallOk s op
  | _ => True

/-- the calls of a history that concern the base class -/
def baseCalls (ops : List MOp) : List Op := ops.filterMap (fun o => match o with | .base op => some op | _ => none)

/-- the levels after a call; `none`: InitializeAdditionalLevels was not called -/
def levStep (s : Setup) (ls : Option (List Lvl)) : MOp → Option (List Lvl)
  | .base _ => ls
  | .initLevels ins => some (ins.map (fun l => (l, fun _ _ => 0)))
  | .setMapLev map i => ls.map (fun l => l.modify i (fun e => (e.1, fun x y => map (x + y * s.W))))
  | .setMapLev2 map i => ls.map (fun l => l.modify i (fun e => (e.1, map)))
  | .updateLev x y v i => ls.map (fun l => l.modify i (fun e => (e.1, fun a b => if a = x ∧ b = y then v else e.2 a b)))

/-- the levels after a history -/
def levOf (s : Setup) (ops : List MOp) : Option (List Lvl) := ops.foldl (levStep s) none
/-- the levels after a history -/
def levelsOf (s : Setup) (ops : List MOp) : List Lvl := (levOf s ops).getD []

/-- `st` is the environment after initialisation with `s` and the calls `ops`, none of which was undefined behaviour -/
def MHist (s : Setup) (ops : List MOp) (st : MEnv) : Prop :=
  SetupOk s ∧ (∀ op ∈ ops, MCallOk s op) ∧ ∃ st0, MEnv.init s = .ok st0 ∧ st0.run ops = some st

/-- consecutive states of the list are joined by transitions, of total cost `n` -/
inductive MPath (s : Setup) (grid : Int → Int → Nat) (ls : List Lvl) : List XKey → Nat → Prop
  | single (p : XKey) : MPath s grid ls [p] 0
  | cons {p q : XKey} {c n : Nat} {l : List XKey} (m : MPrim) :
      MEdge s grid ls m p q c → MPath s grid ls (q :: l) n → MPath s grid ls (p :: q :: l) (c + n)

/-- a sequence of transitions leads from state `p` to state `q` at total cost `n` -/
inductive MWalk (s : Setup) (grid : Int → Int → Nat) (ls : List Lvl) (p : XKey) : XKey → Nat → Prop
  | nil : MWalk s grid ls p p 0
  | snoc {b t : XKey} {n c : Nat} (m : MPrim) : MWalk s grid ls p b n → MEdge s grid ls m b t c → MWalk s grid ls p t (n + c)

end Sbpl.XSpec
