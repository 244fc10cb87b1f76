/-!
# Specification vocabulary for graph searches: walks, path costs

A graph is given by its expansion function: `(t, c) ∈ succ s` iff there is an edge `s → t` of cost `c`.
-/

namespace Sbpl.GraphSpec

/-- `Walk succ a b n`: there is a walk from `a` to `b` whose edge costs add up to `n`. -/
inductive Walk (succ : Nat → List (Nat × Nat)) (a : Nat) : Nat → Nat → Prop
  | nil : Walk succ a a 0
  | snoc {b t n c : Nat} : Walk succ a b n → (t, c) ∈ succ b → Walk succ a t (n + c)

/-- `PathCost succ p n`: consecutive elements of the non-empty list `p` are joined by edges whose
costs (one edge chosen for each step) add up to `n`. -/
inductive PathCost (succ : Nat → List (Nat × Nat)) : List Nat → Nat → Prop
  | single (s : Nat) : PathCost succ [s] 0
  | cons {s t c n : Nat} {p : List Nat} :
      (t, c) ∈ succ s → PathCost succ (t :: p) n → PathCost succ (s :: t :: p) (c + n)

/-- `p` is a path from `a` to `b`. -/
def FromTo (p : List Nat) (a b : Nat) : Prop := p.head? = some a ∧ p.getLast? = some b

/-- `h` is a consistent heuristic for reaching `gl`. -/
def Consistent (succ : Nat → List (Nat × Nat)) (gl : Nat) (h : Nat → Nat) : Prop :=
  h gl = 0 ∧ ∀ s t c, (t, c) ∈ succ s → h s ≤ h t + c

/-- Inflated heuristic values `⌊e * h / D⌋` (the integer truncation of eps * h with eps = e / D) decrease along
every edge by at most `N / M` times the cost of the edge. -/
def UpTo (succ : Nat → List (Nat × Nat)) (h : Nat → Nat) (D e N M : Nat) : Prop :=
  ∀ s t c, (t, c) ∈ succ s → M * (e * h s / D) ≤ M * (e * h t / D) + N * c

end Sbpl.GraphSpec
