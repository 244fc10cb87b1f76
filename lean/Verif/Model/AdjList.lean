import Verif.Model.ARA
/-!
# `AdjacencyListSBPLEnv` (src/include/sbpl/discrete_space_information/environment_precomputed_adjacency_list.h)

`Coords` is any type with decidable equality and a function `dist` (`heuristicDistanceTo`).  `std::map<Coords, int>` is a partial function.  Edge costs are naturals.
`adjacency_vector_` always has as many entries as `points_`; it is a function of the index, whose values at other indices are meaningless.
`StateID2IndexMapping` (only a cache of the planner) and printing are not modelled.
-/

namespace Sbpl.Adj

/-- misuse: a failed `assert`, `end()->second`, or an iterator that was erased -/
inductive Err where
  | unknownPoint | tooMany | erasedIterator
deriving DecidableEq, Repr

/-- the members (lines 121-125) -/
structure Env (C : Type) where
  points : List C
  ids : C → Option Nat
  adj : Nat → List (Nat × Nat)
  startId : Option Nat
  goalId : Option Nat

variable {C : Type} [DecidableEq C]

/-- constructor (lines 130-134) -/
def empty : Env C := ⟨[], fun _ => none, fun _ => [], none, none⟩

/-- addPoint (lines 155-168) -/
def Env.addPoint (e : Env C) (c : C) : Env C :=
  { e with points := e.points ++ [c], ids := fun x => if x = c then some e.points.length else e.ids x, adj := upd e.adj e.points.length [] }

/-- hasPoint (lines 170-174) -/
def Env.hasPoint (e : Env C) (c : C) : Bool := (e.ids c).isSome

/-- the loop that looks for the neighbour, and what follows (lines 233-249) -/
def setEdge : List (Nat × Nat) → Nat → Nat → List (Nat × Nat)
  | [], t, c => [(t, c)]
  | p :: l, t, c => if p.1 = t then (t, c) :: l else p :: setEdge l t c

/-- setCost (lines 212-251): one list after the other -/
def Env.setCost (e : Env C) (c1 c2 : C) (cost : Nat) : Except Err (Env C) :=
  match e.ids c1, e.ids c2 with
  | some i, some j =>
    let adj1 := upd e.adj i (setEdge (e.adj i) j cost)
    .ok { e with adj := upd adj1 j (setEdge (adj1 j) i cost) }
  | _, _ => .error .unknownPoint

/-- erase the first entry of the neighbour (lines 188-198) -/
def eraseFirst : List (Nat × Nat) → Nat → List (Nat × Nat)
  | [], _ => []
  | p :: l, t => if p.1 = t then l else p :: eraseFirst l t

/-- the loop over the neighbours of the point `n` to be deleted (lines 183-199); a self-loop erases the entry that the loop stands on -/
def unlink (n : Nat) : List (Nat × Nat) → (Nat → List (Nat × Nat)) → Except Err (Nat → List (Nat × Nat))
  | [], adj => .ok adj
  | p :: l, adj => if p.1 = n then .error .erasedIterator else unlink n l (upd adj p.1 (eraseFirst (adj p.1) n))

/-- one iteration of removeLastPoints (lines 180-203) -/
def Env.removeLast (e : Env C) : Except Err (Env C) :=
  match e.points.getLast? with
  | none => .error .tooMany
  | some c =>
    match unlink (e.points.length - 1) (e.adj (e.points.length - 1)) e.adj with
    | .error x => .error x
    | .ok adj => .ok { e with points := e.points.dropLast, ids := fun x => if x = c then none else e.ids x, adj := adj }

/-- removeLastPoints (lines 176-204) -/
def Env.removeLastPoints (e : Env C) : Nat → Except Err (Env C)
  | 0 => .ok e
  | n + 1 =>
    match e.removeLast with
    | .error x => .error x
    | .ok e' => Env.removeLastPoints e' n

/-- setStartState (lines 253-259) -/
def Env.setStart (e : Env C) (c : C) : Except Err (Env C) :=
  match e.ids c with
  | none => .error .unknownPoint
  | some i => .ok { e with startId := some i }

/-- setGoalState (lines 261-267) -/
def Env.setGoal (e : Env C) (c : C) : Except Err (Env C) :=
  match e.ids c with
  | none => .error .unknownPoint
  | some i => .ok { e with goalId := some i }

/-- GetFromToHeuristic (lines 277-281), 0 for indices out of range -/
def Env.heur (e : Env C) (dist : C → C → Nat) (i j : Nat) : Nat :=
  match e.points[i]?, e.points[j]? with
  | some x, some y => dist x y
  | _, _ => 0

/-- what ARA* sees: GetSuccs (lines 345-360), heuristics (lines 283-293). GetPreds (lines 362-366) raises an exception; a forward search does not call it.
Indices that are not points (undefined behaviour of `adjacency_vector_[...]`) have no successors here; no such index is ever generated. -/
def Env.penv (e : Env C) (dist : C → C → Nat) : PEnv where
  succs gl s := if s = gl ∨ e.points.length ≤ s then [] else e.adj s
  preds _ _ := []
  hGoal gl s := e.heur dist s gl
  hStart st s := e.heur dist st s

/-- findOptimalPath (lines 368-388) for given start and goal indices: the planner's result (eps values are fifths) and the points of the solution; `budgets` as in the planner model -/
def Env.findOptimalPath (e : Env C) (dist : C → C → Nat) (budgets : List Nat) : Option (ARA.Result × List C) :=
  match e.startId, e.goalId with
  | some s, some g =>
    match (ARA.init (e.penv dist) true 5 25 5 1 false).run [.setStart s, .setGoal g, .setParams 5 5 1 false] with
    | none => none
    | some st =>
      match st.replan budgets with
      | .error _ => none
      | .ok (_, r) => some (r, r.path.filterMap (fun i => e.points[i]?))
  | _, _ => none

/-- a call of the interface -/
inductive Op (C : Type) where
  | add (c : C)
  | remove (n : Nat)
  | set (c1 c2 : C) (cost : Nat)
  | start (c : C)
  | goal (c : C)

def Env.step (e : Env C) : Op C → Except Err (Env C)
  | .add c => .ok (e.addPoint c)
  | .remove n => e.removeLastPoints n
  | .set c1 c2 k => e.setCost c1 c2 k
  | .start c => e.setStart c
  | .goal c => e.setGoal c

def Env.run (e : Env C) : List (Op C) → Except Err (Env C)
  | [] => .ok e
  | op :: ops =>
    match e.step op with
    | .error x => .error x
    | .ok e' => Env.run e' ops

end Sbpl.Adj
