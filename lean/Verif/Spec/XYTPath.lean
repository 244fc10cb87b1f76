import Verif.Spec.XYTPlan
/-! # Specification vocabulary for converted paths -/

namespace Sbpl.XSpec
open XEnv

/-- centre of a cell -/
def centreOf (s : Setup) (p : XKey) : ℚ × ℚ := (s.cs * p.1 + s.cs / 2, s.cs * p.2.1 + s.cs / 2)

/-- a pose relative to the centre of the cell of `p` -/
def placed (s : Setup) (p : XKey) (r : ℚ × ℚ × ℚ) : ℚ × ℚ × ℚ := ((centreOf s p).1 + r.1, (centreOf s p).2 + r.2.1, r.2.2)

/-- `poses` follows the states of the list with the costs `grid`: for each transition the poses of a cheapest primitive for this transition, the last pose excepted -/
inductive Follows (s : Setup) (grid : Int → Int → Nat) : List XKey → List (ℚ × ℚ × ℚ) → Prop
  | nil : Follows s grid [] []
  | single (p : XKey) : Follows s grid [p] []
  | cons {p q : XKey} {l : List XKey} {ps : List (ℚ × ℚ × ℚ)} (m : MPrim) (c : Nat) : Edge s grid m p q c → (∀ m' c', Edge s grid m' p q c' → c ≤ c') →
      Follows s grid (q :: l) ps → Follows s grid (p :: q :: l) ((m.pts.dropLast.map (placed s p)) ++ ps)

/-- every primitive begins at the centre of cell (0, 0) and ends at the centre of its end cell -/
def Exact (s : Setup) : Prop := ∀ m ∈ s.prims, (∃ th, m.pts.head? = some (0, 0, th)) ∧ (∃ th, m.pts.getLast? = some (s.cs * m.dX, s.cs * m.dY, th)) ∧ 2 ≤ m.pts.length

/-- consecutive poses are at most `d` apart in x and in y -/
def StepsWithin (d : ℚ) : List (ℚ × ℚ) → Prop
  | a :: b :: l => |a.1 - b.1| ≤ d ∧ |a.2 - b.2| ≤ d ∧ StepsWithin d (b :: l)
  | _ => True

/-- position of a pose -/
def posOf (r : ℚ × ℚ × ℚ) : ℚ × ℚ := (r.1, r.2.1)

end Sbpl.XSpec
