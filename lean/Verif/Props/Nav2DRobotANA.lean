import Verif.Model.Nav2DRobotANA
import Verif.Props.Nav2DARA
/-!
# C205: the robot of the test program with ANA* is commanded to move into an obstacle

The program does not tell ANA* about changed costs, so the stale search is continued.
-/

namespace Sbpl.RobotProps
open Sbpl GridSpec Nav2DProps Robot

/-- 6 × 2, one obstacle, at (3, 0) -/
def wall : NavTask := ⟨6, 2, 1, fun x y => if x = 3 ∧ y = 0 then 1 else 0, (0, 0), (5, 0)⟩

def intoObs : Outcome → Bool
  | .stopped .intoObstacle => true
  | _ => false

theorem wall_run : (RobotANA.run wall (rowNum 6) (rowDen 6 2) (List.replicate 3 [20, 20, 20])
      (RobotANA.init wall (rowNum 6) (rowDen 6 2))).1 = [(0, 0), (1, 0), (2, 0)] ∧
    intoObs (RobotANA.run wall (rowNum 6) (rowDen 6 2) (List.replicate 3 [20, 20, 20])
      (RobotANA.init wall (rowNum 6) (rowDen 6 2))).2 = true := by decide +kernel

theorem wall_edge {p q : Int × Int} {n : Nat} (hin : InMap 6 2 p.1 p.2)
    (h : (q, n) ∈ (envCfg wall wall.truth).acts.filterMap ((envCfg wall wall.truth).succG p.1 p.2)) :
    Edge 6 2 wall.truth 1 true p q n :=
  (succG_edge (c := envCfg wall wall.truth) (is16 := true) rfl hin).mp h

/-- a way around the obstacle -/
theorem wall_walk : GridWalk 6 2 wall.truth 1 true (0, 0) (5, 0) (1000 + 1414 + 1000 + 1000 + 1414) := by
  have e1 : Edge 6 2 wall.truth 1 true (0, 0) (1, 0) 1000 := wall_edge (by unfold InMap; decide) (by decide +kernel)
  have e2 : Edge 6 2 wall.truth 1 true (1, 0) (2, 1) 1414 := wall_edge (by unfold InMap; decide) (by decide +kernel)
  have e3 : Edge 6 2 wall.truth 1 true (2, 1) (3, 1) 1000 := wall_edge (by unfold InMap; decide) (by decide +kernel)
  have e4 : Edge 6 2 wall.truth 1 true (3, 1) (4, 1) 1000 := wall_edge (by unfold InMap; decide) (by decide +kernel)
  have e5 : Edge 6 2 wall.truth 1 true (4, 1) (5, 0) 1414 := wall_edge (by unfold InMap; decide) (by decide +kernel)
  have w := ((((GridWalk.nil.snoc e1).snoc e2).snoc e3).snoc e4).snoc e5
  simpa using w

/-- **C205 (refuted expectation)** With ANA* the main loop does end with the exception "robot is commanded to move into an
obstacle", although the start is free, a way exists in the true map, the robot has seen the obstacle two moves earlier and no
search was interrupted. -/
theorem ana_robot_hits_obstacle : ∃ (T : NavTask) (num : Int × Int → Nat) (den : Nat → Option (Int × Int)) (bss : List (List Nat))
    (n : Nat) (p : Int × Int),
    Numbering T.W T.H num den ∧ InMap T.W T.H T.start.1 T.start.2 ∧ InMap T.W T.H T.goal.1 T.goal.2 ∧
    T.truth T.start.1 T.start.2 < T.obs ∧ GridWalk T.W T.H T.truth T.obs true T.start T.goal n ∧
    (RobotANA.run T num den bss (RobotANA.init T num den)).1.getLast? = some p ∧ p ≠ T.goal ∧
    (RobotANA.run T num den bss (RobotANA.init T num den)).2 = .stopped .intoObstacle := by
  refine ⟨wall, rowNum 6, rowDen 6 2, List.replicate 3 [20, 20, 20], _, (2, 0), row_numbering (by decide), ?_, ?_, by decide,
    wall_walk, ?_, by decide, ?_⟩
  · show InMap 6 2 0 0; unfold InMap; decide
  · show InMap 6 2 5 0; unfold InMap; decide
  · rw [wall_run.1]; rfl
  · have h := wall_run.2
    generalize (RobotANA.run wall (rowNum 6) (rowDen 6 2) (List.replicate 3 [20, 20, 20])
      (RobotANA.init wall (rowNum 6) (rowDen 6 2))).2 = o at *
    cases o with
    | stopped e => cases e <;> simp [intoObs] at h ⊢
    | _ => simp [intoObs] at h

end Sbpl.RobotProps
