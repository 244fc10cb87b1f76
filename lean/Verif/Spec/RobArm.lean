import Verif.Model.RobArm
import Verif.Spec.BFS
import Verif.Spec.Utils
/-!
# Specification of the robot arm
-/

namespace Sbpl.ArmSpec
open RobArm

variable {K : Type} [Field K] [LinearOrder K] [IsStrictOrderedRing K] [FloorRing K]

/-- configuration files that ReadConfiguration accepts (cells are square), with a map of at most 65536 cells in each direction (coordinates are 16-bit numbers)
and at most INFINITECOST cells -/
structure CfgOk (c : Cfg K) : Prop where
  cell : 0 < c.cell
  w : c.Wm = c.W * c.cell
  h : c.Hm = c.H * c.cell
  w16 : c.W ≤ 65536
  h16 : c.H ≤ 65536
  small : c.W * c.H ≤ INFINITECOST
  vals : ∀ l ∈ c.links, 1 ≤ l.vals

/-- cells of the map -/
def InMap (c : Cfg K) (p : Nat × Nat) : Prop := p.1 < c.W ∧ p.2 < c.H

/-- the cell has no obstacle -/
def Free (c : Cfg K) (p : Nat × Nat) : Prop := c.grid p.1 p.2 ≠ 1

/-- the point lies in the cell (lower boundaries included) -/
def PointIn (c : Cfg K) (x : K × K) (p : Nat × Nat) : Prop :=
  (p.1 : K) * c.cell ≤ x.1 ∧ x.1 < (p.1 + 1) * c.cell ∧ (p.2 : K) * c.cell ≤ x.2 ∧ x.2 < (p.2 + 1) * c.cell

/-- the links of the arm as segments: the first begins at the base, each of the others at the end of the one before -/
def segments : List (Link K) → List Nat → K × K → List ((K × K) × (K × K))
  | l :: ls, k :: ks, p => (p, (p.1 + l.len * l.cs k, p.2 - l.len * l.sn k)) :: segments ls ks (p.1 + l.len * l.cs k, p.2 - l.len * l.sn k)
  | _, _, _ => []

/-- the end effector: the end of the last link -/
def effector (c : Cfg K) (k : List Nat) : K × K := (((segments c.links k c.base).map Prod.snd).getLast?).getD c.base

/-- a link is clear: its ends are in cells of the map, and no cell of the line of cells between them has an obstacle -/
def Clear (c : Cfg K) (s : (K × K) × (K × K)) : Prop :=
  ∃ a b l, InMap c a ∧ InMap c b ∧ PointIn c s.1 a ∧ PointIn c s.2 b ∧
    Utils.line (c.W + c.H + 1) (a.1, a.2) (b.1, b.2) = some l ∧ ∀ q ∈ l, ∃ n : Nat × Nat, q = ((n.1 : Int), (n.2 : Int)) ∧ InMap c n ∧ Free c n

/-- a configuration of the arm: one value per joint -/
def IsConf (c : Cfg K) (k : List Nat) : Prop := k.length = c.links.length

/-- no link leaves the map or touches an obstacle -/
def Valid (c : Cfg K) (k : List Nat) : Prop := IsConf c k ∧ ∀ s ∈ segments c.links k c.base, Clear c s

/-- all values are below the joint's number of values -/
def Canon (c : Cfg K) (k : List Nat) : Prop := List.Forall₂ (fun (l : Link K) v => v < l.vals) c.links k

/-- one joint is turned by one step (cyclically); the other joints keep their values -/
inductive Turned : List (Link K) → List Nat → List Nat → Prop
  | up {l : Link K} {ls : List (Link K)} {k : Nat} {ks : List Nat} : Turned (l :: ls) (k :: ks) ((k + 1) % l.vals :: ks)
  | down {l : Link K} {ls : List (Link K)} {k v : Nat} {ks : List Nat} : v < l.vals → (v + 1) % l.vals = k → Turned (l :: ls) (k :: ks) (v :: ks)
  | other {l : Link K} {ls : List (Link K)} {k : Nat} {ks ks' : List Nat} : Turned ls ks ks' → Turned (l :: ls) (k :: ks) (k :: ks')

/-- one step of a joint moves the end of its link by at most one cell width in each direction (the purpose of DiscretizeAngles) -/
def FineSteps (c : Cfg K) : Prop :=
  ∀ l ∈ c.links, ∀ k, k < l.vals → |l.len * l.cs ((k + 1) % l.vals) - l.len * l.cs k| ≤ c.cell ∧ |l.len * l.sn ((k + 1) % l.vals) - l.len * l.sn k| ≤ c.cell

/-- adjacent cells of the map -/
def Adj (c : Cfg K) (p q : Nat × Nat) : Prop :=
  InMap c p ∧ InMap c q ∧ p ≠ q ∧ |(p.1 : Int) - q.1| ≤ 1 ∧ |(p.2 : Int) - q.2| ≤ 1

/-- `v` is the least number of moves between adjacent cells from `o` to `p` when every cell entered must be free, INFINITECOST if there is no way -/
def IsDist (c : Cfg K) (o p : Nat × Nat) (v : Nat) : Prop :=
  (BfsSpec.Steps (Adj c) (Free c) (· = o) p v ∧ ∀ m, BfsSpec.Steps (Adj c) (Free c) (· = o) p m → v ≤ m) ∨
  (v = INFINITECOST ∧ ∀ m, ¬ BfsSpec.Steps (Adj c) (Free c) (· = o) p m)

/-- all joints at value 0 (the arm stretched out to the right) -/
def zero (c : Cfg K) : List Nat := c.links.map fun _ => 0

/-- the end effector is in the goal cell -/
def AtGoal (c : Cfg K) (k : List Nat) : Prop := PointIn c (effector c k) (c.gx, c.gy)

/-- a motion of the arm: every configuration is valid and results from the one before by turning one joint one step -/
def Motion (c : Cfg K) : List (List Nat) → Prop
  | [] => True
  | [k] => Valid c k
  | k :: k' :: ks => Valid c k ∧ Turned c.links k k' ∧ Motion c (k' :: ks)

/-- The state ID `i` stands for the configuration `k` in an environment with tables `e`: all configurations with the end effector in the goal cell are one state, the goal
(ID 1); **so is the configuration in which all joints are 0**, unless it is the start. -/
def StandsFor (c : Cfg K) (e : Env K) (i : Nat) (k : List Nat) : Prop :=
  (i = 1 ∧ (AtGoal c k ∨ (k = zero c ∧ c.startCoord ≠ zero c))) ∨
  (i ≠ 1 ∧ ¬ AtGoal c k ∧ ¬ (k = zero c ∧ c.startCoord ≠ zero c) ∧ ∃ x, e.table[i]? = some x ∧ x.coord = k)

/-- the environment after initialisation and any sequence of GetSuccs calls -/
def Reached (c : Cfg K) (e : Env K) : Prop := ∃ junk e0 calls, c.init junk = .ok (some e0) ∧ e0.expand calls = .ok e

/-- the configuration in which all joints are 0 is harmless: it is the start, or collides, or has its end effector in the goal cell -/
def ZeroHarmless (c : Cfg K) : Prop := c.startCoord = zero c ∨ ¬ Valid c (zero c) ∨ AtGoal c (zero c)

/-- a numbering of the valid configurations by state IDs (with inverse), where the start has ID 0 and the goal's ID 1 is not used -/
structure ANumbering (c : Cfg K) (num : List Nat → Nat) (den : Nat → Option (List Nat)) : Prop where
  left : ∀ k, Canon c k → Valid c k → den (num k) = some k
  notGoal : ∀ k, Canon c k → Valid c k → num k ≠ 1
  right : ∀ i k, i ≠ 1 → den i = some k → num k = i ∧ Canon c k ∧ Valid c k
  start : num c.startCoord = 0

/-- the numbering agrees with the IDs of an environment -/
def Agrees (e : Env K) (num : List Nat → Nat) (den : Nat → Option (List Nat)) : Prop :=
  ∀ i (x : Entry), i ≠ 1 → e.table[i]? = some x → num x.coord = i ∧ den i = some x.coord

end Sbpl.ArmSpec
