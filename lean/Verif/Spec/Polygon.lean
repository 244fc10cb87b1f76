import Mathlib.Data.Rat.Floor
/-! # Specification of polygons -/

namespace Sbpl.PolySpec

abbrev Pt := ℚ × ℚ

/-- positive: `r` is on the left of the line from `p` to `q`; negative: on the right; 0: on the line -/
def orient (p q r : Pt) : ℚ := (q.1 - p.1) * (r.2 - p.2) - (q.2 - p.2) * (r.1 - p.1)

/-- consecutive vertices of the closed polygon -/
def Edge (ps : List Pt) (p q : Pt) : Prop := (p, q) ∈ List.zip (ps ++ ps.take 1) (ps ++ ps.take 1).tail

/-- strictly convex, vertices in counterclockwise order: any three of them, in their order, make a left turn -/
def Convex (ps : List Pt) : Prop := ∀ a b c, [a, b, c].Sublist ps → 0 < orient a b c

/-- on the left of the line from `p` to `q`; points of the line itself count if the line goes up, or horizontally to the left -/
def HalfLeft (p q r : Pt) : Prop := 0 < orient p q r ∨ (orient p q r = 0 ∧ (p.2 < q.2 ∨ (p.2 = q.2 ∧ q.1 < p.1)))

end Sbpl.PolySpec
