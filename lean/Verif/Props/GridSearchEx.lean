import Verif.Props.GridSearch
/-!
# C41–C45: concrete searches, and what does not hold
-/

namespace Sbpl.GridProps
open GridSpec Grid2D GraphSpec

/-! ## concrete searches -/

/-- a 3 * 2 map -/
def map32 (x y : Int) : Nat :=
  if y = 0 then 0 else if x = 0 then 1 else if x = 1 then 9 else 2

/-- run one search on a new object and look at the values of some cells -/
def try1 (w h ds mm0 den : Nat) (grid : Int → Int → Nat) (thr : Nat) (st gl : Int × Int) (t : Term) (cs : List (Int × Int)) :
    Option (Bool × Nat × List Int) :=
  match (init w h ds mm0 den).search grid thr st gl t with
  | .ok (b, s) => some (b, s.largest, cs.map fun c => s.lowerBound c.1 c.2)
  | .error _ => none

theorem try1_some {w h ds mm0 den : Nat} {grid : Int → Int → Nat} {thr : Nat} {st gl : Int × Int} {t : Term}
    {cs : List (Int × Int)} {b : Bool} {l : Nat} {vs : List Int} (h1 : try1 w h ds mm0 den grid thr st gl t cs = some (b, l, vs)) :
    ∃ s, Reached w h ds mm0 den s ∧ (init w h ds mm0 den).search grid thr st gl t = .ok (b, s) ∧ s.largest = l ∧
      cs.map (fun c => s.lowerBound c.1 c.2) = vs := by
  unfold try1 at h1
  split at h1
  next b' s e =>
    simp only [Option.some.injEq, Prod.mk.injEq] at h1
    obtain ⟨rfl, rfl, rfl⟩ := h1
    exact ⟨s, .search grid thr st gl t .new e, e, rfl, rfl⟩
  next => cases h1

/-- the map described -/
def mapFor (w h ds mm0 den : Nat) (grid : Int → Int → Nat) (thr : Nat) : Map := (init w h ds mm0 den).mapOf grid thr

theorem mapFor_describes {w h ds mm0 den : Nat} (hd : 1 ≤ ds) (grid : Int → Int → Nat) (thr : Nat) :
    Describes (mapFor w h ds mm0 den grid thr) w h ds mm0 den grid thr :=
  ⟨rfl, rfl, rfl, rfl, rfl, fun c => cost_block hd grid c.1 c.2⟩

-- C42, C43: cells of 5/3 mm; from (0, 1) to (2, 0), 20% beyond the optimum; the blocked cell (1, 1) has no finite cost
example : try1 3 2 1 5 3 map32 9 (0, 1) (2, 0) .percent20 [(2, 0), (1, 0), (0, 1), (1, 1)] =
    some (true, 7, [4, 3, 0, 7]) := by decide +kernel
-- all cells
example : try1 3 2 1 5 3 map32 9 (0, 1) (2, 0) .allCells [(2, 0), (1, 0), (0, 1), (1, 1), (2, 1)] =
    some (true, INFINITECOST, [4, 3, 0, (INFINITECOST : Int), 7]) := by decide +kernel
-- C45: the opposite direction
example : try1 3 2 1 5 3 map32 9 (2, 0) (0, 1) .threeTimes [(0, 1)] = some (true, INFINITECOST, [4]) := by decide +kernel
-- C44: cells of 2 mm
example : try1 3 2 1 2 1 map32 9 (0, 1) (2, 0) .optPath [(2, 0), (1, 0)] = some (true, 6, [6, 4]) := by decide +kernel
-- a 6 * 4 map downsampled by 2
example : try1 6 4 2 1 1 (fun x y => map32 (x / 2) (y / 2)) 9 (1, 3) (5, 0) .twoTimes [(4, 1), (3, 0)] = some (true, INFINITECOST, [6, 4]) := by
  decide +kernel
-- C41: start outside the map
example : try1 3 2 1 5 3 map32 9 (3, 1) (2, 0) .twoTimes [] = some (false, 0, []) := by decide +kernel

/-! ## what does not hold -/

/-- **C44, the hypothesis is needed.** Cells of 5/3 mm: the heuristic of OPTPATHFOUND overestimates and the cost reported for the goal is not that
of a cheapest way (5 instead of 4). -/
theorem astar_not_exact_fractional : ∃ (s : Grid2D) (n : Nat), Reached 3 2 1 5 3 s ∧
    (init 3 2 1 5 3).search map32 9 (0, 1) (2, 0) .optPath = .ok (true, s) ∧
    (mapFor 3 2 1 5 3 map32 9).Way (0, 1) (2, 0) n ∧ (n : Int) < s.lowerBound 2 0 := by
  have h1 : try1 3 2 1 5 3 map32 9 (0, 1) (2, 0) .optPath [(2, 0)] = some (true, 5, [5]) := by decide +kernel
  have h2 : try1 3 2 1 5 3 map32 9 (0, 1) (2, 0) .percent20 [(2, 0)] = some (true, 7, [4]) := by decide +kernel
  obtain ⟨s, r, e, _, v⟩ := try1_some h1
  obtain ⟨s2, _, e2, l2, v2⟩ := try1_some h2
  simp only [List.map_cons, List.map_nil, List.cons.injEq, and_true] at v v2
  have b := lower_bounds (t := .percent20) (by decide) (by decide) .new (by decide) e2 (mapFor_describes (by decide) map32 9) (2, 0) (by
    unfold Map.Inside; decide)
  obtain ⟨n, h3, h4⟩ := b.2.1 (by rw [v2, l2]; decide)
  exact ⟨s, n, r, e, h4, by rw [v]; rw [v2] at h3; omega⟩

/-- **C43, the condition on the goal is needed.** ALLCELLS with the start as the goal computes nothing: every cell is reported as costing 0. -/
theorem allcells_start_is_goal : ∃ s : Grid2D, Reached 3 2 1 5 3 s ∧
    (init 3 2 1 5 3).search map32 9 (0, 1) (0, 1) .allCells = .ok (true, s) ∧ s.lowerBound 2 0 = 0 ∧
    (mapFor 3 2 1 5 3 map32 9).Dist INFINITECOST (0, 1) (2, 0) 4 := by
  have h1 : try1 3 2 1 5 3 map32 9 (0, 1) (0, 1) .allCells [(2, 0)] = some (true, 0, [0]) := by decide +kernel
  have h2 : try1 3 2 1 5 3 map32 9 (0, 1) (2, 0) .percent20 [(2, 0)] = some (true, 7, [4]) := by decide +kernel
  obtain ⟨s, r, e, _, v⟩ := try1_some h1
  obtain ⟨s2, _, e2, _, v2⟩ := try1_some h2
  simp only [List.map_cons, List.map_nil, List.cons.injEq, and_true] at v v2
  have b := (promised_exact (t := .percent20) (by decide) (by decide) .new (by decide) e2 (mapFor_describes (by decide) map32 9)).1
  simp only [v2] at b
  exact ⟨s, r, e, v, b⟩

/-- **C41, what the answer means.** With downsampling the start (-1, -1), outside the map, is accepted. -/
theorem negative_start_accepted : ∃ s : Grid2D,
    (init 6 4 2 1 1).search (fun _ _ => 0) 9 (-1, -1) (5, 0) .twoTimes = .ok (true, s) := by
  have h1 : try1 6 4 2 1 1 (fun _ _ => 0) 9 (-1, -1) (5, 0) .twoTimes [] = some (true, INFINITECOST, []) := by decide +kernel
  obtain ⟨s, _, e, _⟩ := try1_some h1
  exact ⟨s, e⟩

/-- **C42, after a rejected search.** If a search is rejected (returns `false`) the object answers with the bound of the previous
search: INFINITECOST for every cell here, although the cost to (2, 0) is 4. -/
theorem rejected_search_stale : ∃ s1 s2 : Grid2D, Reached 3 2 1 5 3 s2 ∧
    (init 3 2 1 5 3).search map32 9 (0, 1) (2, 0) .allCells = .ok (true, s1) ∧
    s1.search map32 9 (0, 1) (3, 0) .allCells = .ok (false, s2) ∧ s1.lowerBound 2 0 = 4 ∧ s2.lowerBound 2 0 = INFINITECOST := by
  have h1 : (match (init 3 2 1 5 3).search map32 9 (0, 1) (2, 0) .allCells with
    | .ok (b, s1) => (match s1.search map32 9 (0, 1) (3, 0) .allCells with
      | .ok (b2, s2) => some (b, b2, s1.lowerBound 2 0, s2.lowerBound 2 0)
      | .error _ => none)
    | .error _ => none) = some (true, false, 4, (INFINITECOST : Int)) := by decide +kernel
  split at h1
  next b s1 e1 =>
    split at h1
    next b2 s2 e2 =>
      simp only [Option.some.injEq, Prod.mk.injEq] at h1
      obtain ⟨rfl, rfl, v1, v2⟩ := h1
      exact ⟨s1, s2, .search _ _ _ _ _ (.search _ _ _ _ _ .new e1) e2, e1, e2, v1, v2⟩
    next => cases h1
  next => cases h1

end Sbpl.GridProps
