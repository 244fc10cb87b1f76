import Verif.Props.Footprint
/-! # C61: concrete footprints -/

namespace Sbpl.FpProps
open Fp hiding Cell
open FpSpec

def okF (o : Option Result) (f : Result → Bool) : Bool := match o with | none => false | some r => f r

theorem okF_some {o : Option Result} {f : Result → Bool} (h : okF o f = true) : ∃ r, o = some r ∧ f r = true := by
  cases o with
  | none => cases h
  | some r => exact ⟨r, rfl, h⟩

/-- an outline that is not convex -/
def dart : List Cell := [(0, 0), (6, 2), (2, 2), (1, 7)]

theorem dart_small : dart ≠ [] ∧ Small dart := by
  refine ⟨by decide, ?_⟩
  intro p hp
  simp only [dart, List.mem_cons, List.not_mem_nil, or_false] at hp
  rcases hp with rfl | rfl | rfl | rfl <;> decide

/-- its cells: (1, 2) is enclosed and not on the outline; (4, 4) is in the bounding box and not in the footprint -/
example : ∃ r, fill 200 7 dart = some r ∧ r.full = false ∧ (1, 2) ∈ r.cells ∧ (4, 4) ∉ r.cells ∧ InBox dart (4, 4) := by
  obtain ⟨r, h1, h2⟩ := okF_some (o := fill 200 7 dart) (f := fun r => !r.full && (decide ((1, 2) ∈ r.cells) && decide ((4, 4) ∉ r.cells))) (by decide +kernel)
  simp only [Bool.and_eq_true, Bool.not_eq_true', decide_eq_true_iff] at h2
  exact ⟨r, h1, h2.1, h2.2.1, h2.2.2, ⟨(0, 0), by simp [dart], by decide⟩, ⟨(6, 2), by simp [dart], by decide⟩, ⟨(0, 0), by simp [dart], by decide⟩, ⟨(1, 7), by simp [dart], by decide⟩⟩

/-- **C61, refuted expectation.** The cells of a footprint are not those that the robot covers: vertices are rounded to the nearest integer, although cell `i` is the interval from
`i` to `i + 1` (`CONTXY2DISC`, which is what is used for a point robot). This robot covers 0.5 ≤ x ≤ 3.5, 0.5 ≤ y ≤ 2.5; the point (0.75, 1.5) of it is in cell (0, 1), which the footprint lacks. -/
theorem rounding_misses_cells : ∃ r, footprint 200 0 [(0, 0), (3, 0), (3, 2), (0, 2)] (1 / 2) (1 / 2) 1 0 1 = some r ∧
    isInside (3 / 4, 3 / 2) [(1 / 2, 1 / 2), (7 / 2, 1 / 2), (7 / 2, 5 / 2), (1 / 2, 5 / 2)] = some true ∧
    (Utils.contXY2Disc (3 / 4) 1, Utils.contXY2Disc (3 / 2) 1) = (0, 1) ∧ (0, 1) ∉ r.cells ∧
    -- ... and has cells that the robot does not touch
    (4, 3) ∈ r.cells := by
  obtain ⟨r, h1, h2⟩ := okF_some (o := footprint 200 0 [(0, 0), (3, 0), (3, 2), (0, 2)] (1 / 2) (1 / 2) 1 0 1) (f := fun r => decide ((0, 1) ∉ r.cells) && decide ((4, 3) ∈ r.cells)) (by decide +kernel)
  simp only [Bool.and_eq_true, decide_eq_true_iff] at h2
  exact ⟨r, h1, by decide +kernel, by decide +kernel, h2.1, h2.2⟩

/-- **C61, refuted expectation.** A robot that is small compared to a cell does not even occupy the cell it is in: a square of side 0.1 around (0.9, 0.9), cell (0, 0), gets cell (1, 1) only. -/
theorem small_robot_wrong_cell : ∃ r, footprint 200 0 [(-1 / 20, -1 / 20), (1 / 20, -1 / 20), (1 / 20, 1 / 20), (-1 / 20, 1 / 20)] (9 / 10) (9 / 10) 1 0 1 = some r ∧
    (∀ c ∈ r.cells, c = (1, 1)) ∧ (Utils.contXY2Disc (9 / 10) 1, Utils.contXY2Disc (9 / 10) 1) = (0, 0) := by
  obtain ⟨r, h1, h2⟩ := okF_some (o := footprint 200 0 [(-1 / 20, -1 / 20), (1 / 20, -1 / 20), (1 / 20, 1 / 20), (-1 / 20, 1 / 20)] (9 / 10) (9 / 10) 1 0 1)
    (f := fun r => r.cells.all (fun c => decide (c = (1, 1)))) (by decide +kernel)
  simp only [List.all_eq_true, decide_eq_true_iff] at h2
  exact ⟨r, h1, h2, by decide +kernel⟩

/-- driving one cell to the right -/
example : ∃ cells, motion 200 0 [(0, 0), (3, 0), (3, 2), (0, 2)] 1 [(1, 1, 1, 0), (2, 1, 1, 0)] = some cells ∧ (∀ c ∈ cells, c.1 = 5) ∧ (5, 2) ∈ cells := by
  have h : (match motion 200 0 [(0, 0), (3, 0), (3, 2), (0, 2)] 1 [(1, 1, 1, 0), (2, 1, 1, 0)] with | none => false | some l => l.all (fun c => decide (c.1 = 5)) && decide ((5, 2) ∈ l)) = true := by decide +kernel
  cases hm : motion 200 0 [(0, 0), (3, 0), (3, 2), (0, 2)] 1 [(1, 1, 1, 0), (2, 1, 1, 0)] with
  | none => rw [hm] at h; cases h
  | some l =>
    rw [hm] at h
    simp only [Bool.and_eq_true, List.all_eq_true, decide_eq_true_iff] at h
    exact ⟨l, rfl, h.1, h.2⟩

end Sbpl.FpProps
