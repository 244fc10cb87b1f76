import Verif.Props.ADEx
import Verif.Props.Nav2DARA
/-!
# AD* on `EnvironmentNAV2D`: the heuristic overestimates by rounding, and repairs break (C73)

On a free 20 × 20 map the first path runs along the diagonal: 19 moves of cost 1414, total 26866, while the heuristic
`(int)(1000 * sqrt(..))` of states near the start is larger than the remaining cost (e.g. 25455 for 18 moves of 1414 =
25452).  When the cell (1, 1) next to the start becomes dearer, the affected states get keys above the goal's key
and are never processed.
-/

namespace Sbpl.ADProps
open Sbpl GraphSpec PlannerSpec ADSpec ARA Nav2DProps

/-- free 20 × 20 map, 8-connected, obstacle threshold 20, with cost `v` in cell (1, 1) -/
def diagCfg (v : Nat) : NavCfg := ⟨20, 20, 20, fun x y => if x = 1 ∧ y = 1 then v else 0, 8, (0, 0), (19, 19)⟩
def diagEnv (v : Nat) : PEnv := navPEnv (diagCfg v) (rowNum 20) (rowDen 20 20)

/-- the cell (1, 1) and its neighbours, as `GetSuccsofChangedEdges` lists them -/
def diagList : List Nat := [21, 42, 22, 2, 41, 1, 40, 20, 0]

/-- plan from (0, 0) to (19, 19), change the cost of (1, 1) by `UpdateCost`, call `costs_changed`; the first search has
created 94 states -/
def diagOps (v : Nat) : List AD.Op := [.setGoal 399, .setStart 0, .replan [1000], .costsChanged (diagEnv v) diagList diagList 94]

/-- the listed edges exist -/
def edgesOk (succ : Nat → List (Nat × Nat)) : Nat → List (Nat × Nat) → Bool
  | _, [] => true
  | s, (t, c) :: r => decide ((t, c) ∈ succ s) && edgesOk succ t r

theorem walk_edgesOk {succ : Nat → List (Nat × Nat)} {a : Nat} : ∀ (l : List (Nat × Nat)) (s n : Nat), Walk succ a s n →
    edgesOk succ s l = true → Walk succ a (l.foldl (fun _ e => e.1) s) (l.foldl (fun n e => n + e.2) n) := by
  intro l
  induction l with
  | nil => intro s n w _; exact w
  | cons e l ih =>
    obtain ⟨t, c⟩ := e
    intro s n w h
    simp only [edgesOk, Bool.and_eq_true, decide_eq_true_eq] at h
    exact ih t (n + c) (w.snoc h.1) h.2

/-- a way around (1, 1) -/
def diagWay : List (Nat × Nat) :=
  [(1, 1000), (2, 1000), (22, 1000), (42, 1000), (63, 1414), (84, 1414), (105, 1414), (126, 1414), (147, 1414), (168, 1414), (189, 1414),
   (210, 1414), (231, 1414), (252, 1414), (273, 1414), (294, 1414), (315, 1414), (336, 1414), (357, 1414), (378, 1414), (399, 1414)]

theorem diag_walk (v : Nat) (h : v = 10 ∨ v = 20) : Walk ((diagEnv v).succs 399) 0 399 28038 := by
  rcases h with rfl | rfl
  · exact walk_edgesOk diagWay 0 0 .nil (by decide +kernel)
  · exact walk_edgesOk diagWay 0 0 .nil (by decide +kernel)

theorem diag_ok (v : Nat) : EnvOk (diagEnv v) := nav_envOk (is16 := false) (row_numbering (show (0 : Int) < 20 by decide)) rfl

/-- everything that is correct about the history: the environments are well-formed, the announced list contains the
changed cell and all its neighbours, and a path around exists -/
def DiagSetting (v : Nat) : Prop :=
  EnvOk (diagEnv 0) ∧ EnvOk (diagEnv v) ∧
    (∀ x y : Fin 3, rowNum 20 ((x.val : Int), (y.val : Int)) ∈ diagList) ∧
    Walk ((diagEnv v).succs 399) 0 399 28038

theorem diag_setting (v : Nat) (h : v = 10 ∨ v = 20) : DiagSetting v :=
  ⟨diag_ok 0, diag_ok v, by decide +kernel, diag_walk v h⟩

/-- **C73a, refuted** "AD* repairs its path when a cell of an `EnvironmentNAV2D` map becomes dearer."  After the cost of
(1, 1) was raised to 10, `replan` raises "underconsistent state on the path". -/
theorem nav2d_dearer_cell_raises : DiagSetting 10 ∧ ∃ st,
    AD.run (AD.init (diagEnv 0) true 1 1 1 1 false) (diagOps 10) = some st ∧
    AD.replan st [1000] = .error .underconsistentOnPath :=
  ⟨diag_setting 10 (.inl rfl), adErr_some (by decide +kernel :
    adErr (diagEnv 0) true 1 1 1 1 false (diagOps 10) [1000] = some .underconsistentOnPath)⟩

/-- **C73b, refuted** "AD* repairs its path when a cell becomes an obstacle."  `replan` reports success, bound 1, the
old cost 26866 (of the path through the new obstacle) and an empty path; no time limit was hit. -/
theorem nav2d_new_obstacle_empty_path : DiagSetting 20 ∧ ∃ st st' res,
    AD.run (AD.init (diagEnv 0) true 1 1 1 1 false) (diagOps 20) = some st ∧
    AD.replan st [1000] = .ok (st', res) ∧ res.found = true ∧ res.finalEps = some 1 ∧ res.path = [] ∧ res.cost = 26866 ∧
    NoTimeout [1000] res.traces := by
  refine ⟨diag_setting 20 (.inr rfl), ?_⟩
  obtain ⟨st, st', h1, h2⟩ := adRun_some (by decide +kernel :
    adRun (diagEnv 0) true 1 1 1 1 false (diagOps 20) [1000] = some ⟨true, [], 26866, some 1, [[]]⟩)
  exact ⟨st, st', _, h1, h2, rfl, rfl, rfl, rfl, 0, by decide, by decide⟩

end Sbpl.ADProps
