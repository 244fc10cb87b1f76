import Verif.Props.XYTPath
import Verif.Props.XYTEx
/-!
# Converted paths: a concrete run, and what is missing from the result (C137)
-/

namespace Sbpl.XYTPathProps
open XEnv XSpec XYTProps

/-- one step forward in two poses, or turn; two headings -/
def drivePrims : List MPrim :=
  [⟨0, 1, 0, 0, [(0, 0, 0), (1/2, 0, 0), (1, 0, 0)], 1000, none⟩, ⟨0, 1, 0, 0, [(0, 0, 0), (1/3, 0, 0), (1, 0, 0)], 1500, none⟩,
   ⟨1, 0, 1, 1, [(0, 0, 0), (0, 1/2, 0), (0, 1, 0)], 1000, none⟩, ⟨1, 0, 0, 0, [(0, 0, 1), (0, 0, 0)], 300, none⟩]

/-- a map of 4 × 1 cells -/
def drive : Setup :=
  { W := 4, H := 1, T := 2, cs := 1, obs := 10, inscr := 8, circ := 5, poly := false, foot := pointFoot 1, prims := drivePrims,
    map := fun i => if i = 1 then 2 else 0, start := (0, 0, 0), goal := (3, 0, 0) }

theorem drive_ok : SetupOk drive := ⟨by decide, by decide⟩

theorem drive_exact : Exact drive ∧ (∀ m ∈ drive.prims, StepsWithin (2/3) (m.pts.map posOf)) ∧ 0 < drive.cs := by
  refine ⟨?_, ?_, by norm_num [drive]⟩
  · intro m hm
    simp only [drive, drivePrims, List.mem_cons, List.not_mem_nil, or_false] at hm
    rcases hm with rfl | rfl | rfl | rfl <;> simp [drive]
  · intro m hm
    simp only [drive, drivePrims, List.mem_cons, List.not_mem_nil, or_false] at hm
    rcases hm with rfl | rfl | rfl | rfl <;> simp [StepsWithin, posOf] <;> norm_num [abs_le]

/-- what is observed of a conversion -/
def posesOf (r : Except XErr (XEnv × List (ℚ × ℚ × ℚ))) : Option (List (ℚ × ℚ × ℚ)) := (okOf r).map Prod.snd

theorem posesOf_some {r : Except XErr (XEnv × List (ℚ × ℚ × ℚ))} {l : List (ℚ × ℚ × ℚ)} (h : posesOf r = some l) : ∃ st', r = .ok (st', l) := by
  unfold posesOf okOf at h
  split at h
  next a => simp only [Option.map_some, Option.some.injEq] at h; exact ⟨a.1, by rw [← h]⟩
  next => cases h

/-- the way from the start to the goal of the demo, converted -/
def drivePoses : List (ℚ × ℚ × ℚ) := [(1/2, 1/2, 0), (1, 1/2, 0), (3/2, 1/2, 0), (2, 1/2, 0), (5/2, 1/2, 0), (3, 1/2, 0)]

theorem drive_run : ∃ st, Hist drive [.getSuccs 0, .getSuccs 2] st ∧ st.getCoord 0 = .ok (0, 0, 0) ∧ st.getCoord 2 = .ok (1, 0, 0) ∧ st.getCoord 3 = .ok (2, 0, 0) ∧
    st.getCoord 1 = .ok (3, 0, 0) ∧ st.goalId = 1 ∧ ∃ st', convertPath drive st [0, 2, 3, 1] = .ok (st', drivePoses) := by
  obtain ⟨st, st2, h1, h2, h3⟩ := try2_ok (s := drive) (ops := [.getSuccs 0, .getSuccs 2]) (ops' := []) (f := fun st _ =>
    decide (okOf (st.getCoord 0) = some (0, 0, 0)) && decide (okOf (st.getCoord 2) = some (1, 0, 0)) && decide (okOf (st.getCoord 3) = some (2, 0, 0)) &&
    decide (okOf (st.getCoord 1) = some (3, 0, 0)) && decide (st.goalId = 1) && decide (posesOf (convertPath drive st [0, 2, 3, 1]) = some drivePoses))
    (by decide +kernel)
  have okc : ∀ {i : Nat} {k : XKey}, okOf (st.getCoord i) = some k → st.getCoord i = .ok k := by
    intro i k h
    unfold okOf at h
    split at h
    next a e => cases h; exact e
    next => cases h
  simp only [Bool.and_eq_true, decide_eq_true_eq] at h3
  obtain ⟨⟨⟨⟨⟨a1, a2⟩, a3⟩, a4⟩, a5⟩, a6⟩ := h3
  exact ⟨st, tryX_hist drive_ok (by simp [CallOk]) h1, okc a1, okc a2, okc a3, okc a4, a5, posesOf_some a6⟩

/-- the theorems apply to this run: the poses follow the path, are safe, and make no step longer than 2/3 -/
example : Follows drive (costs drive [.getSuccs 0, .getSuccs 2]) [(0, 0, 0), (1, 0, 0), (2, 0, 0), (3, 0, 0)] drivePoses ∧
    StepsWithin (2/3) (drivePoses.map posOf ++ [centreOf drive (3, 0, 0)]) := by
  obtain ⟨st, h, c0, c2, c3, c1, -, st', hr⟩ := drive_run
  have f := convert_exact h (ks := [(0, 0, 0), (1, 0, 0), (2, 0, 0), (3, 0, 0)]) (by simp [c0, c2, c3, c1]) hr
  exact ⟨f, (follows_continuous drive_exact.1 drive_exact.2.1 f rfl rfl).1⟩

/-- **C137** (refuted expectation) The poses of a converted path reach the goal: in fact the last pose of the last primitive is left out, the positions stop half a cell before the centre of the
cell of the goal, although the path ends at the goal. -/
theorem goal_pose_missing : ∃ (s : Setup) (ops : List Op) (st : XEnv) (l : List Nat) (ks : List XKey) (st' : XEnv) (poses : List (ℚ × ℚ × ℚ)), Hist s ops st ∧ Exact s ∧ l.map (fun i => st.getCoord i) = ks.map .ok ∧ ks.getLast? = some (goalOf s ops) ∧
    convertPath s st l = .ok (st', poses) ∧ poses ≠ [] ∧ ∀ r ∈ poses, r.1 + 1/2 ≤ (centreOf s (goalOf s ops)).1 := by
  obtain ⟨st, h, c0, c2, c3, c1, -, st', hr⟩ := drive_run
  refine ⟨drive, _, st, [0, 2, 3, 1], [(0, 0, 0), (1, 0, 0), (2, 0, 0), (3, 0, 0)], st', _, h, drive_exact.1, by simp [c0, c2, c3, c1], by simp [goalOf, goalStep, drive], hr,
    by simp [drivePoses], ?_⟩
  intro r hr
  simp only [drivePoses, List.mem_cons, List.not_mem_nil, or_false] at hr
  rcases hr with rfl | rfl | rfl | rfl | rfl | rfl <;> norm_num [goalOf, goalStep, drive, centreOf]

/-- **C137** (refuted expectation) Every transition contributes a pose: a primitive with a single pose, such as a turn on the spot given by one pose, contributes none, so that a path of valid
transitions can be converted to the empty list. -/
theorem turn_lost : ∃ st, Hist demo [.getSuccs 0] st ∧ Connected st [0, 3] ∧ ∃ st', convertPath demo st [0, 3] = .ok (st', []) := by
  obtain ⟨st, st2, h1, h2, h3⟩ := try2_ok (s := demo) (ops := [.getSuccs 0]) (ops' := []) (f := fun st _ =>
    decide (posesOf (convertPath demo st [0, 3]) = some []) && (okOf (st.getCoord 0)).isSome && (okOf (st.getCoord 3)).isSome)
    (by decide +kernel)
  simp only [Bool.and_eq_true, decide_eq_true_eq] at h3
  obtain ⟨⟨a1, a2⟩, a3⟩ := h3
  have h := tryX_hist demo_ok (by simp [CallOk]) h1
  have okc : ∀ {i : Nat}, (okOf (st.getCoord i)).isSome = true → ∃ k, st.getCoord i = .ok k := by
    intro i h
    unfold okOf at h
    split at h
    next a e => exact ⟨a, e⟩
    next => cases h
  obtain ⟨st', hr⟩ := posesOf_some a1
  refine ⟨st, h, (convert_total h ?_).1.mp ⟨st', _, hr⟩, st', hr⟩
  intro id hid
  simp only [List.mem_cons, List.not_mem_nil, or_false] at hid
  rcases hid with rfl | rfl
  · exact okc a2
  · exact okc a3

end Sbpl.XYTPathProps
