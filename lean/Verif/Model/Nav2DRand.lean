import Mathlib.Analysis.SpecialFunctions.Trigonometric.Basic
import Verif.Model.Nav2D
/-!
# `EnvironmentNAV2D`: random neighbours for R* (environment_nav2D.cpp:545-640, 1214-1285)

Directions are real numbers; `cos`, `sin`, the division and the conversions to `float` are exact.
The outcome of `rand()` is an arbitrary direction for every attempt (`dirs`, indexed by the attempt).
-/

namespace Sbpl

/-- conversion of a `double` to `int`: towards zero -/
noncomputable def truncR (x : ℝ) : Int := if 0 ≤ x then ⌊x⌋ else ⌈x⌉

namespace Nav2D

/-- `fRadius` (environment_nav2D.cpp:571-580) -/
noncomputable def neighRadius (dist : Nat) (dir : ℝ) : ℝ :=
  if |Real.cos dir| > |Real.sin dir| then ((dist : ℝ) + 1 / 2) / |Real.cos dir|
  else ((dist : ℝ) + 1 / 2) / |Real.sin dir|

/-- `dX`, `dY` (environment_nav2D.cpp:582-583) -/
noncomputable def neighDisp (dist : Nat) (dir : ℝ) : Int × Int :=
  (truncR (neighRadius dist dir * Real.cos dir), truncR (neighRadius dist dir * Real.sin dir))

/-- the condition for the exception (environment_nav2D.cpp:585-592) -/
def neighBad (dist : Nat) (d : Int × Int) : Prop :=
  (|d.1| < (dist : Int) ∧ |d.2| < (dist : Int)) ∨ |d.1| > (dist : Int) ∨ |d.2| > (dist : Int)

instance (dist : Nat) (d : Int × Int) : Decidable (neighBad dist d) := by unfold neighBad; infer_instance

/-- an exception, or the environment and the list of neighbours with their `CLow` -/
abbrev NeighRes := Option (Nav2D × List (Nat × Nat))

/-- loop over the random directions (environment_nav2D.cpp:562-618).  `left`: attempts left (5 * nNumofNeighs at first),
`need`: neighbours still wanted; an invalid cell consumes an attempt only (`i--; continue;`). `none` is the exception.
The heuristic is symmetric in the two states, so `bSuccs` does not matter here except for the order of
its arguments. -/
noncomputable def neighLoop (x y : Int) (dist : Nat) : (dirs : Nat → ℝ) → (left need : Nat) → Nav2D → NeighRes
  | _, 0, _, st => some (st, [])
  | _, _ + 1, 0, st => some (st, [])
  | dirs, left + 1, need + 1, st =>
    let d := neighDisp dist (dirs 0)
    if neighBad dist d then none
    else if st.cfg.valid (x + d.1) (y + d.2) = false then neighLoop x y dist (fun i => dirs (i + 1)) left (need + 1) st
    else
      let r := st.getState (x + d.1, y + d.2)
      match neighLoop x y dist (fun i => dirs (i + 1)) left need r.1 with
      | none => none
      | some (st', l) => some (st', (r.2, eucl (x, y) (x + d.1, y + d.2)) :: l)

/-- GetRandomNeighs (environment_nav2D.cpp:545-640); `des`/`desId`: goal or start.  `.error`: the ID does not exist. -/
noncomputable def getRandomNeighs (st : Nav2D) (id : Nat) (num dist : Nat) (dirs : Nat → ℝ) (des : Int × Int) (desId : Nat) :
    Except EnvErr NeighRes :=
  match st.getCoord id with
  | .error e => .error e
  | .ok (x, y) =>
    match neighLoop x y dist dirs (5 * num) num st with
    | none => .ok none
    | some (st', l) =>
      if |des.1 - x| ≤ (dist : Int) ∧ |des.2 - y| ≤ (dist : Int) then
        match st'.fromToHeur id desId with
        | .error e => .error e
        | .ok h => .ok (some (st', l ++ [(desId, h)]))
      else .ok (some (st', l))

/-- GetRandomSuccsatDistance (environment_nav2D.cpp:1244-1263): 10 neighbours at distance 100; for the goal the
output vectors are left as they are (`old`). -/
noncomputable def getRandomSuccs (st : Nav2D) (id : Nat) (old : List (Nat × Nat)) (dirs : Nat → ℝ) : Except EnvErr NeighRes :=
  if id = st.goalId then .ok (some (st, old)) else st.getRandomNeighs id 10 100 dirs st.cfg.goal st.goalId

/-- GetRandomPredsatDistance (environment_nav2D.cpp:1266-1286): 10 neighbours at distance 5 -/
noncomputable def getRandomPreds (st : Nav2D) (id : Nat) (old : List (Nat × Nat)) (dirs : Nat → ℝ) : Except EnvErr NeighRes :=
  if id = st.startId then .ok (some (st, old)) else st.getRandomNeighs id 10 5 dirs st.cfg.start st.startId

/-- AreEquivalent (environment_nav2D.cpp:1226-1241) -/
def areEquivalent (st : Nav2D) (a b : Nat) : Except EnvErr Bool :=
  match st.getCoord a, st.getCoord b with
  | .ok p, .ok q => .ok (decide (p.1 = q.1 ∧ p.2 = q.2))
  | _, _ => .error .badId

end Nav2D
end Sbpl
