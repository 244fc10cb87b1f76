import Verif.Props.Nav2DRobot
/-!
# C200–C204: concrete cases
-/

namespace Sbpl.RobotProps
open Sbpl GridSpec PlannerSpec Nav2DProps Robot

/-- how a run ended, as data -/
def kind : Outcome → Option (List Nat × List (List Nat)) × Nat
  | .arrived => (none, 0)
  | .going => (none, 1)
  | .stopped (.noPlan bs tr) => (some (bs, tr), 2)
  | .stopped _ => (none, 3)

theorem kind_arrived {o : Outcome} (h : kind o = (none, 0)) : o = .arrived := by
  cases o with
  | arrived => rfl
  | going => simp [kind] at h
  | stopped e => cases e <;> simp [kind] at h

theorem kind_noPlan {o : Outcome} {bs : List Nat} {tr : List (List Nat)} (h : kind o = (some (bs, tr), 2)) :
    o = .stopped (.noPlan bs tr) := by
  cases o with
  | arrived => simp [kind] at h
  | going => simp [kind] at h
  | stopped e => cases e <;> simp [kind] at h; obtain ⟨rfl, rfl⟩ := h; rfl

theorem inMap_of {W H x y : Int} (h : 0 ≤ x ∧ x < W ∧ 0 ≤ y ∧ y < H) : InMap W H x y := h

/-- 3 × 2, an obstacle between start and goal -/
def corner : NavTask := ⟨3, 2, 1, fun x y => if x = 1 ∧ y = 0 then 1 else 0, (0, 0), (2, 0)⟩

def cornerRun (bss : List (List Nat)) := run corner (rowNum 3) (rowDen 3 2) bss
  (init corner (rowNum 3) (rowDen 3 2) 1 1 1 1 true)

theorem corner_run : (cornerRun (List.replicate 4 [9])).1 = [(0, 0), (0, 1), (1, 1), (2, 1), (2, 0)] ∧
    kind (cornerRun (List.replicate 4 [9])).2 = (none, 0) := by decide +kernel

/-- C200: the robot walks around the obstacle -/
theorem corner_trail : Trail 3 2 corner.truth 1 [(0, 0), (0, 1), (1, 1), (2, 1), (2, 0)] := by
  have h := (robot_moves_safe (T := corner) (row_numbering (W := 3) (H := 2) (by decide)) (inMap_of (by decide)) (inMap_of (by decide))
    (by intro bs hb; rw [List.eq_of_mem_replicate hb]; simp)
    (Prod.mk.eta (p := cornerRun (List.replicate 4 [9]))).symm).2.1
  rw [corner_run.1] at h
  exact h

theorem corner_walk : ∃ n, GridWalk 3 2 corner.truth 1 true (0, 0) (2, 0) n := by
  cases corner_trail with
  | step _ e1 h => cases h with
    | step _ e2 h => cases h with
      | step _ e3 h => cases h with
        | step _ e4 _ => exact ⟨_, (((GridWalk.nil.snoc e1).snoc e2).snoc e3).snoc e4⟩

/-- the hypotheses of C204 (and C203) are met, with enough passes -/
example : ∃ l o, cornerRun (List.replicate (7 * (INFINITECOST + 1)) [9]) = (l, o) ∧
    ((o = .arrived ∧ l.getLast? = some (2, 0)) ∨ o = .stopped (.planner (.heap .full)) ∨
      o = .stopped (.planner (.list .full))) := by
  obtain ⟨n, w⟩ := corner_walk
  refine ⟨_, _, Prod.mk.eta.symm, robot_arrives (T := corner) (D := 1) (B := 1) (row_numbering (W := 3) (H := 2) (by decide))
    (inMap_of (by decide)) (inMap_of (by decide)) (Prod.mk.eta (p := cornerRun (List.replicate (7 * (INFINITECOST + 1)) [9]))).symm
    (Nat.le_refl _) (Nat.le_refl _) (by decide) (by decide) (by decide +kernel) (by decide) w ?_ ?_⟩
  · intro bs hb
    rw [List.eq_of_mem_replicate hb]
    simp [corner]
  · rw [List.length_replicate]; exact Nat.le_refl _

/-- 4 × 1: the goal is an obstacle, which the robot sees from x = 1 only -/
def blind : NavTask := ⟨4, 1, 1, fun x _ => if x = 3 then 1 else 0, (0, 0), (3, 0)⟩

def blindRun := run blind (rowNum 4) (rowDen 4 1) (List.replicate 4 [9]) (init blind (rowNum 4) (rowDen 4 1) 1 1 1 1 true)

theorem blind_run : blindRun.1 = [(0, 0), (1, 0)] ∧ kind blindRun.2 = (some ([9], [[3]]), 2) := by decide +kernel

/-- the hypotheses of C201 and C202 are met: it sets out, sees the obstacle and gives up -/
example : ∃ l o, blindRun = (l, o) ∧ o = .stopped (.noPlan [9] [[3]]) ∧ NoTimeout [9] [[3]] ∧ l.getLast? = some (1, 0) ∧
    ∀ n, GridWalk 4 1 blind.truth 1 true (1, 0) (3, 0) n → 1000 * 1 * INFINITECOST ≤ (1001 * 1 + 1) * n := by
  have hnt : NoTimeout [9] [[3]] := ⟨1, by simp, by simp⟩
  have he := kind_noPlan blind_run.2
  obtain ⟨p, hp, h⟩ := robot_gives_up_rightly (T := blind) (D := 1) (B := 1) (row_numbering (W := 4) (H := 1) (by decide))
    (inMap_of (by decide)) (inMap_of (by decide)) (by intro bs hb; rw [List.eq_of_mem_replicate hb]; simp)
    (Prod.mk.eta (p := blindRun)).symm he (Nat.le_refl _) (Nat.le_refl _) (by decide) (by decide) (by decide) hnt
  have hl : blindRun.1.getLast? = some (1, 0) := by rw [blind_run.1]; rfl
  rw [hl] at hp
  cases hp
  exact ⟨_, _, Prod.mk.eta.symm, he, hnt, hl, h⟩

end Sbpl.RobotProps
