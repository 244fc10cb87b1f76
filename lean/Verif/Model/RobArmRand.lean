import Verif.Model.RobArm
/-!
# `EnvironmentROBARM::GetRandomSuccsatDistance` (used by R*)

The random numbers of a call are its argument `draws`.
-/

namespace Sbpl
namespace RobArm
variable {K : Type} [Field K] [LinearOrder K] [IsStrictOrderedRing K] [FloorRing K]

/-- the random choices for one successor (environment_robarm.cpp:1328-1356): the joint that moves furthest (NUMOFLINKS, i.e. none, if rand() is RAND_MAX), and for each joint
whether it turns up, and by how much (0 to 30, only used for the other joints) -/
structure Draw where
  maxi : Nat
  joints : List (Bool × Nat)

/-- ROBARM_LONGACTIONDIST_CELLS (environment_robarm.h:39) -/
def longDist : Nat := 30

/-- one coordinate of a random successor (environment_robarm.cpp:1333-1374); the results are converted to 16-bit numbers -/
def randJoint (vals k : Nat) (far up : Bool) (off : Nat) : Nat :=
  if far then
    if up then u16 (((k + longDist) % vals : Nat) : Int)
    else if k < longDist then u16 ((k : Int) + vals - longDist)
    else k - longDist
  else
    if up ∨ off = 0 then u16 (((k + off) % vals : Nat) : Int)
    else if k < off then u16 ((k : Int) + vals - off)
    else k - off

/-- the coordinates of a random successor (environment_robarm.cpp:1331-1375); `i` is the index of the first joint -/
def randCoord (maxi : Nat) : Nat → List (Link K) → List Nat → List (Bool × Nat) → List Nat
  | i, l :: ls, k :: ks, d :: ds => randJoint l.vals k (decide (i = maxi)) d.1 d.2 :: randCoord maxi (i + 1) ls ks ds
  | _, _, _, _ => []

/-- the successor's ID (environment_robarm.cpp:1390-1400): unlike in GetSuccs the goal test is always made -/
def Env.randId (e : Env K) (k : List Nat) : Env K × Nat :=
  if e.cfg.endCell k = (e.cfg.gx, e.cfg.gy) then (e, goalId)
  else
    match e.find k with
    | some x => (e, x.id)
    | none => let r := e.create k (e.cfg.endCell k); (r.1, r.2.id)

/-- no further than 30 cells away in x and y (environment_robarm.cpp:1387-1388, 1413-1414) -/
def inReach (a b : Nat × Nat) : Bool := decide (((a.1 : Int) - b.1).natAbs ≤ longDist) && decide (((a.2 : Int) - b.2).natAbs ≤ longDist)

/-- the loop over the random actions (environment_robarm.cpp:1326-1410) -/
def Env.randLoop (s : Entry) : List Draw → Env K → List (Nat × Nat) → Except Err (Env K × List (Nat × Nat))
  | [], e, acc => .ok (e, acc)
  | d :: ds, e, acc =>
    let k := randCoord d.maxi 0 e.cfg.links s.coord d.joints
    match e.cfg.isValid k with
    | .error x => .error x
    | .ok false => Env.randLoop s ds e acc
    | .ok true =>
      if inReach (s.ex, s.ey) (e.cfg.endCell k) = false then Env.randLoop s ds e acc
      else
        let r := e.randId k
        match r.1.fromToHeuristic s.id r.2 with
        | .error x => .error x
        | .ok h => Env.randLoop s ds r.1 (acc ++ [(r.2, h)])

/-- `GetRandomSuccsatDistance` (environment_robarm.cpp:1306-1423) -/
def Env.randSuccs (e : Env K) (id : Nat) (draws : List Draw) : Except Err (Env K × List (Nat × Nat)) :=
  if id = goalId then .ok (e, [])
  else
    match e.table[id]? with
    | none => .error .badId
    | some s =>
      match Env.randLoop s draws e [] with
      | .error x => .error x
      | .ok r =>
        if inReach (e.cfg.gx, e.cfg.gy) (s.ex, s.ey) = true then
          match r.1.fromToHeuristic s.id goalId with
          | .error x => .error x
          | .ok h => .ok (r.1, r.2 ++ [(goalId, h)])
        else .ok r

/-- the calls of R* that change the tables -/
inductive Call where
  | succs (id : Nat)
  | rand (id : Nat) (draws : List Draw)

/-- a call; the answers are irrelevant for the tables -/
def Env.calls (e : Env K) : List Call → Except Err (Env K)
  | [] => .ok e
  | .succs i :: cs =>
    match e.getSuccs i with
    | .error x => .error x
    | .ok r => Env.calls r.1 cs
  | .rand i d :: cs =>
    match e.randSuccs i d with
    | .error x => .error x
    | .ok r => Env.calls r.1 cs

end RobArm
end Sbpl
