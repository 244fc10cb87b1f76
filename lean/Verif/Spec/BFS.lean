import Mathlib.Algebra.Order.Ring.Abs
/-! # Specification of step distances on grids -/

namespace Sbpl.BfsSpec

/-- `Steps adj free src c n`: some source reaches `c` by `n` moves between adjacent cells, every cell entered being
free (the source itself need not be free). -/
inductive Steps {α : Type} (adj : α → α → Prop) (free : α → Prop) (src : α → Prop) : α → Nat → Prop
  | source {c : α} : src c → Steps adj free src c 0
  | move {c d : α} {n : Nat} : Steps adj free src c n → adj c d → free d → Steps adj free src d (n + 1)

/-- `v` is the distance of `c` from the sources: the least number of moves, or -1 if no source reaches `c`. -/
def IsDist {α : Type} (adj : α → α → Prop) (free : α → Prop) (src : α → Prop) (c : α) (v : Int) : Prop :=
  (∃ n : Nat, v = n ∧ Steps adj free src c n ∧ ∀ m, Steps adj free src c m → n ≤ m) ∨
  (v = -1 ∧ ∀ m, ¬ Steps adj free src c m)

/-- cells of a `sx` by `sy` map -/
def In2 (sx sy : Int) (c : Int × Int) : Prop := 0 ≤ c.1 ∧ c.1 < sx ∧ 0 ≤ c.2 ∧ c.2 < sy

/-- 8-adjacent cells of the map -/
def Adj2 (sx sy : Int) (c d : Int × Int) : Prop :=
  In2 sx sy c ∧ In2 sx sy d ∧ c ≠ d ∧ |c.1 - d.1| ≤ 1 ∧ |c.2 - d.2| ≤ 1

/-- cells of a `sx` by `sy` by `sz` map -/
def In3 (sx sy sz : Int) (c : Int × Int × Int) : Prop :=
  0 ≤ c.1 ∧ c.1 < sx ∧ 0 ≤ c.2.1 ∧ c.2.1 < sy ∧ 0 ≤ c.2.2 ∧ c.2.2 < sz

/-- 26-adjacent cells of the map -/
def Adj3 (sx sy sz : Int) (c d : Int × Int × Int) : Prop :=
  In3 sx sy sz c ∧ In3 sx sy sz d ∧ c ≠ d ∧ |c.1 - d.1| ≤ 1 ∧ |c.2.1 - d.2.1| ≤ 1 ∧ |c.2.2 - d.2.2| ≤ 1

end Sbpl.BfsSpec
