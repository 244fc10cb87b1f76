/-!
# Shared basics of the SBPL model

`upd` models a write into an array / a field of an indexed object.
-/

namespace Sbpl

/-- A write `a[i] = v`; arrays and per-state fields are modelled as functions.
Simplification: reads outside the written range return the initial content instead of being
undefined behaviour; where bounds matter they are stated as separate theorems. -/
def upd {α : Type} (f : Nat → α) (i : Nat) (v : α) : Nat → α :=
  fun j => if j = i then v else f j

@[simp] theorem upd_same {α : Type} (f : Nat → α) (i : Nat) (v : α) : upd f i v i = v := by
  simp [upd]

theorem upd_other {α : Type} (f : Nat → α) {i j : Nat} (v : α) (h : j ≠ i) :
    upd f i v j = f j := by
  simp [upd, h]

/-- `#define INFINITECOST 1000000000` (src/include/sbpl/utils/key.h:35). -/
def INFINITECOST : Nat := 1000000000

end Sbpl
