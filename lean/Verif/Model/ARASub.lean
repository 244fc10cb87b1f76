import Verif.Model.ARA
import Mathlib.Data.Rat.Defs
import Mathlib.Algebra.Order.Ring.Rat
/-!
# `ARAPlanner::compute_suboptimality` (src/planners/araplanner.cpp:1198-1277)

The a-posteriori suboptimality estimate: the cost of the solution divided by the smallest `g + h` of the states
in INCONS and OPEN.  `double` arithmetic is exact here; `int` additions do not overflow.
-/

namespace Sbpl.ARA

/-- `std::numeric_limits<int>::max()` (araplanner.cpp:1207, 1231, 1257) -/
def INTMAX : Nat := 2147483647

/-- `if (g + h < min) min = g + h` (araplanner.cpp:1217-1221, 1244-1248) -/
def subMin (st : ARA) (s m : Nat) : Nat := if st.g s + st.h s < m then st.g s + st.h s else m

/-- loop over the INCONS list (araplanner.cpp:1208-1226): `cur` is `currElem`, `m` is `inconsListMin`; `fuel`
bounds the number of iterations -/
def subIncons (st : ARA) : Nat → Option Nat → Nat → Except PErr Nat
  | _, none, m => .ok m
  | 0, some _, _ => .error .noTermination
  | fuel + 1, some s, m =>
    match st.incons.getNext s with
    | .error e => .error (.list e)
    | .ok nx => subIncons st fuel nx (st.subMin s m)

/-- loop over the OPEN heap (araplanner.cpp:1233-1250): `openListMin` after the slots `1 .. n` -/
def subOpen (st : ARA) : Nat → Nat
  | 0 => INTMAX
  | n + 1 => st.subMin (st.heap.arr (n + 1)).st (subOpen st n)

/-- `pSearchStateSpace_->eps_satisfied` as a number; INFINITECOST until some bound is satisfied
(araplanner.cpp:587, 655) -/
def epsSatQ (st : ARA) : ℚ :=
  match st.epsSat with
  | none => (INFINITECOST : ℚ)
  | some e => (e : ℚ) / (st.D : ℚ)

/-- compute_suboptimality (araplanner.cpp:1198-1277); `none` is the return value -1.0.  The loop over OPEN runs
over `i = 1; i < currentsize` (line 1233), although slots are numbered from 1 to `currentsize`.  For
`overallMin = 0` the lower bound is the largest double (line 1268), so the minimum is `eps_satisfied`. -/
def computeSub (st : ARA) : Except PErr (Option ℚ) :=
  match st.incons.getFirst with
  | .error e => .error (.list e)
  | .ok f =>
    match st.subIncons (st.incons.size + 1) f INTMAX with
    | .error e => .error e
    | .ok im =>
      let om := st.subOpen (st.heap.size - 1)
      let m := if om < im then om else im
      if m = INTMAX then .ok none
      else
        match st.goal with
        | none => .ok none
        | some gl =>
          .ok (some (max 1 (if m = 0 then st.epsSatQ else min st.epsSatQ ((st.g gl : ℚ) / (m : ℚ)))))

end Sbpl.ARA
