import Mathlib.Algebra.Order.Ring.Abs
/-! # Specification of footprints -/

namespace Sbpl.FpSpec

abbrev Cell := Int × Int

/-- in the bounding box of the vertices -/
def InBox (ps : List Cell) (c : Cell) : Prop := (∃ a ∈ ps, a.1 ≤ c.1) ∧ (∃ a ∈ ps, c.1 ≤ a.1) ∧ (∃ a ∈ ps, a.2 ≤ c.2) ∧ ∃ a ∈ ps, c.2 ≤ a.2

/-- the cells have a side in common -/
def Side (p q : Cell) : Prop := (p.1 = q.1 ∧ (p.2 = q.2 + 1 ∨ q.2 = p.2 + 1)) ∨ (p.2 = q.2 ∧ (p.1 = q.1 + 1 ∨ q.1 = p.1 + 1))

/-- `p` and `q` are joined by cells satisfying `P`, successive ones having a side in common -/
inductive Joined (P : Cell → Prop) : Cell → Cell → Prop
  | refl {p : Cell} : P p → Joined P p p
  | step {p q r : Cell} : P p → Side p q → Joined P q r → Joined P p r

/-- in the rectangle spanned by `p` and `q`, and at most one cell from the line through them (measured along an axis) -/
def Near (p q c : Cell) : Prop :=
  min p.1 q.1 ≤ c.1 ∧ c.1 ≤ max p.1 q.1 ∧ min p.2 q.2 ≤ c.2 ∧ c.2 ≤ max p.2 q.2 ∧
  |(q.1 - p.1) * (c.2 - p.2) - (q.2 - p.2) * (c.1 - p.1)| ≤ max |q.1 - p.1| |q.2 - p.2|

/-- consecutive vertices of the closed polygon -/
def Edge (ps : List Cell) (p q : Cell) : Prop := (p, q) ∈ List.zip (ps ++ ps.take 1) (ps ++ ps.take 1).tail

/-- one can get from `c` out of the box without entering a cell of the border, moving to any of the 8 neighbours -/
inductive Escapes (box border : Cell → Prop) : Cell → Prop
  | out {c : Cell} : ¬ box c → Escapes box border c
  | step {c d : Cell} : ¬ border c → |c.1 - d.1| ≤ 1 → |c.2 - d.2| ≤ 1 → Escapes box border d → Escapes box border c

end Sbpl.FpSpec
