import Verif.Model.AdjList
/-! # Specification of the adjacency-list environment: an undirected graph on points -/

namespace Sbpl.AdjSpec
open Adj

/-- an undirected graph whose nodes are points, in the order in which they were added -/
structure Graph (C : Type) where
  pts : List C
  cost : C → C → Option Nat

variable {C : Type} [DecidableEq C]

/-- the effect of a call on the graph -/
def Graph.step (G : Graph C) : Op C → Graph C
  | .add c => ⟨G.pts ++ [c], G.cost⟩
  | .remove n => ⟨G.pts.take (G.pts.length - n), fun x y => if x ∈ G.pts.take (G.pts.length - n) ∧ y ∈ G.pts.take (G.pts.length - n) then G.cost x y else none⟩
  | .set c1 c2 k => ⟨G.pts, fun x y => if (x = c1 ∧ y = c2) ∨ (x = c2 ∧ y = c1) then some k else G.cost x y⟩
  | .start _ => G
  | .goal _ => G

/-- calls as they are meant: no point is added twice, edges join different points that exist, not more points are removed than there are -/
def Legal (G : Graph C) : Op C → Prop
  | .add c => c ∉ G.pts
  | .remove n => n ≤ G.pts.length
  | .set c1 c2 _ => c1 ∈ G.pts ∧ c2 ∈ G.pts ∧ c1 ≠ c2
  | .start c => c ∈ G.pts
  | .goal c => c ∈ G.pts

def LegalAll (G : Graph C) : List (Op C) → Prop
  | [] => True
  | op :: ops => Legal G op ∧ LegalAll (G.step op) ops

/-- the graph after the calls, from the empty one -/
def after (ops : List (Op C)) : Graph C := ops.foldl Graph.step ⟨[], fun _ _ => none⟩

/-- a path of the graph and its cost -/
inductive GPath (G : Graph C) : List C → Nat → Prop
  | single {x : C} : x ∈ G.pts → GPath G [x] 0
  | cons {x y : C} {p : List C} {k n : Nat} : G.cost x y = some k → GPath G (y :: p) n → GPath G (x :: y :: p) (k + n)

/-- edges cost at least 1, and `dist` is a consistent estimate of path costs -/
def Estimates (dist : C → C → Nat) (G : Graph C) : Prop :=
  (∀ x, dist x x = 0) ∧ ∀ x y k, G.cost x y = some k → 1 ≤ k ∧ ∀ z, dist x z ≤ dist y z + k

/-- the points of `p` go from `a` to `b` -/
def Joins (p : List C) (a b : C) : Prop := p.head? = some a ∧ p.getLast? = some b

end Sbpl.AdjSpec
