import Mathlib.Order.Defs.LinearOrder
import Mathlib.Tactic.SplitIfs
/-!
# `CKey` (src/include/sbpl/utils/key.h:37-187), KEY_SIZE = 2
-/

namespace Sbpl

/-- `class CKey { long int key[2]; }` (key.h:37-41).  `long int` is modelled by unbounded `Int`. -/
@[ext] structure CKey where
  k0 : Int
  k1 : Int
deriving DecidableEq, Repr

namespace CKey

/-- `operator >` (key.h:105-123, KEY_SIZE == 2 branch). -/
def gtB (a b : CKey) : Bool := decide (a.k0 > b.k0) || (decide (a.k0 = b.k0) && decide (a.k1 > b.k1))
/-- `operator ==` (key.h:125-145). -/
def eqB (a b : CKey) : Bool := decide (a.k0 = b.k0) && decide (a.k1 = b.k1)
/-- `operator !=` (key.h:147-150). -/
def neB (a b : CKey) : Bool := !(eqB a b)
/-- `operator <` (key.h:152-170). -/
def ltB (a b : CKey) : Bool := decide (a.k0 < b.k0) || (decide (a.k0 = b.k0) && decide (a.k1 < b.k1))
/-- `operator >=` (key.h:173). -/
def geB (a b : CKey) : Bool := !(ltB a b)
/-- `operator <=` (key.h:175). -/
def leB (a b : CKey) : Bool := !(gtB a b)

/-- The order used by the heaps: `<` is the code's `operator <`, `≤` is the code's `operator <=`. -/
instance : LT CKey := ⟨fun a b => ltB a b = true⟩
instance : LE CKey := ⟨fun a b => leB a b = true⟩
instance : DecidableLT CKey := fun a b => inferInstanceAs (Decidable (ltB a b = true))
instance : DecidableLE CKey := fun a b => inferInstanceAs (Decidable (leB a b = true))

theorem lt_def (a b : CKey) : a < b ↔ a.k0 < b.k0 ∨ (a.k0 = b.k0 ∧ a.k1 < b.k1) := by
  show ltB a b = true ↔ _
  simp [ltB]

theorem le_def (a b : CKey) : a ≤ b ↔ a.k0 < b.k0 ∨ (a.k0 = b.k0 ∧ a.k1 ≤ b.k1) := by
  show leB a b = true ↔ _
  simp only [leB, gtB, Bool.not_eq_true', Bool.or_eq_false_iff, Bool.and_eq_false_iff,
    decide_eq_false_iff_not]
  omega

/-- The code's comparison operators form a linear order (proved, not assumed). -/
instance : LinearOrder CKey where
  le_refl a := by rw [le_def]; omega
  le_trans a b c := by simp only [le_def]; omega
  lt_iff_le_not_ge a b := by simp only [le_def, lt_def]; omega
  le_antisymm a b := by
    simp only [le_def]; intro h1 h2; ext <;> omega
  le_total a b := by simp only [le_def]; omega
  toDecidableLE := inferInstance
  toDecidableEq := inferInstance
  toDecidableLT := inferInstance

/-- `CKey::SetKeytoInfinity` (key.h:64-69). -/
def infinity : CKey := ⟨1000000000, 1000000000⟩

end CKey
end Sbpl
