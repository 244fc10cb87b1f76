import Verif.Props.GridBucket
import Verif.Props.GridSearchEx
/-!
# Witnesses for C47 and C48
-/

namespace Sbpl.GridBProps
open GridSpec Grid2D GraphSpec GridB GridProps

/-- a 3 by 2 map: costs 0 3 1 / 1 9 1 -/
def mapS (x y : Int) : Nat :=
  if y = 0 then (if x = 0 then 0 else if x = 1 then 3 else 1) else (if x = 0 then 1 else if x = 1 then 9 else 1)

/-- values reported for some cells after a search on a new object for a map of `w * h` cells of one millimetre, and the largest optimal value -/
def tryB (w h dyn : Nat) (grid : Int → Int → Nat) (thr : Nat) (st gl : Int × Int) (t : Term) (cs : List (Int × Int)) :
    Except GBErr (Bool × Nat × List Int) :=
  match (GridB.init w h 1 1 1 dyn).search grid thr st gl t with
  | .error e => .error e
  | .ok (v, b) => .ok (v, b.s.largest, cs.map fun c => b.lowerBound c.1 c.2)

theorem tryB_ok {w h dyn : Nat} {grid : Int → Int → Nat} {thr : Nat} {st gl : Int × Int} {t : Term} {cs : List (Int × Int)} {v : Bool}
    {l : Nat} {vs : List Int} (h1 : tryB w h dyn grid thr st gl t cs = .ok (v, l, vs)) :
    ∃ b, (GridB.init w h 1 1 1 dyn).search grid thr st gl t = .ok (v, b) ∧ b.s.largest = l ∧
      cs.map (fun c => b.lowerBound c.1 c.2) = vs := by
  unfold tryB at h1
  split at h1
  next => cases h1
  next v' b e =>
    simp only [Except.ok.injEq, Prod.mk.injEq] at h1
    obtain ⟨rfl, rfl, rfl⟩ := h1
    exact ⟨b, e, rfl, rfl⟩

-- C47: a search that stops early
example : tryB 3 2 2 mapS 200 (0, 1) (2, 1) .percent20 [(0, 0), (1, 1), (2, 1)] = .ok (true, 10, [2, 10, 8]) := by decide +kernel
-- C48: all cells; the blocked cell has no finite cost
example : tryB 3 2 0 mapS 9 (0, 1) (2, 1) .allCells [(0, 0), (1, 1), (2, 1)] = .ok (true, INFINITECOST, [2, (INFINITECOST : Int), 8]) := by
  decide +kernel

/-- **C47, the threshold matters.** On a map of cost 254 with the threshold 255 — every cell is free — the search raises the exception "out of window
priority": a knight's move costs as much as the buckets span. -/
theorem bucket_window_exception :
    (GridB.init 3 2 1 1 1 0).search (fun _ _ => 254) 255 (0, 0) (2, 1) .twoTimes = .error (.bucket .window) := by
  have h1 : tryB 3 2 0 (fun _ _ => 254) 255 (0, 0) (2, 1) .twoTimes [] = .error (.bucket .window) := by decide +kernel
  unfold tryB at h1
  split at h1
  next e he => rw [he]; cases h1; rfl
  next => cases h1

/-- **C48, the goal is under-reported.** Unlike with the heap (C43), after a search that promises all the cells up to twice the cost of the goal the value
reported for the goal itself need not be the cost of a cheapest way: the search takes its limit from a state that was expanded long ago but is
still listed with an outdated priority. -/
theorem bucket_goal_underreported : ∃ b, (GridB.init 3 2 1 1 1 0).search mapS 200 (0, 1) (1, 1) .twoTimes = .ok (true, b) ∧
    b.lowerBound 1 1 = 8 ∧ (mapFor 3 2 1 1 1 mapS 200).Dist INFINITECOST (0, 1) (1, 1) 10 := by
  have h1 : tryB 3 2 0 mapS 200 (0, 1) (1, 1) .twoTimes [(1, 1)] = .ok (true, 8, [8]) := by decide +kernel
  have h2 : tryB 3 2 0 mapS 200 (0, 1) (1, 1) .allCells [(1, 1)] = .ok (true, INFINITECOST, [10]) := by decide +kernel
  obtain ⟨b, e, _, v⟩ := tryB_ok h1
  obtain ⟨b2, e2, _, v2⟩ := tryB_ok h2
  simp only [List.map_cons, List.map_nil, List.cons.injEq, and_true] at v v2
  refine ⟨b, e, v, ?_⟩
  have := bucket_allcells_exact (dyn := 0) (by decide) (by decide) (by decide) .new (by decide) (by decide) e2
    (mapFor_describes (by decide) mapS 200) (1, 1) (by unfold Map.Inside; decide)
  rw [v2] at this
  exact this

end Sbpl.GridBProps
