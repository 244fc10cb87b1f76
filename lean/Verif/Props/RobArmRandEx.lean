import Verif.Props.RobArmRand
import Verif.Props.RobArmEx
/-!
# C119: a concrete case
-/

namespace Sbpl.ArmExProps
open RobArm ArmSpec

/-- a link with 32 values (eight angles for each of the four directions: an arbitrary table with small steps) -/
def lk32 (a : ℚ) : Link ℚ := ⟨1, 32, 1, a, fun k => cs4 (k / 8), fun k => sn4 (k / 8)⟩
def arm32 : Cfg ℚ := ⟨4, 4, 4, 4, 1, 1, 0, 2, fun x y => if x = 0 ∧ y = 3 then 1 else 0, [lk32 0, lk32 12]⟩

theorem arm32_ok : CfgOk arm32 := by
  refine ⟨by norm_num [arm32], by norm_num [arm32], by norm_num [arm32], by simp [arm32], by simp [arm32], by simp [arm32, INFINITECOST], ?_⟩
  intro l hl
  simp only [arm32, List.mem_cons, List.not_mem_nil, or_false] at hl
  rcases hl with rfl | rfl <;> simp [lk32]

theorem arm32_fine : FineSteps arm32 := by
  have : ∀ k, k < 32 → |1 * cs4 ((k + 1) % 32 / 8) - 1 * cs4 (k / 8)| ≤ 1 ∧ |1 * sn4 ((k + 1) % 32 / 8) - 1 * sn4 (k / 8)| ≤ (1 : ℚ) := by
    intro k hk
    interval_cases k <;> norm_num [cs4, sn4]
  intro l hl k hk
  simp only [arm32, List.mem_cons, List.not_mem_nil, or_false] at hl
  rcases hl with rfl | rfl <;> exact this k hk

def randOf (e : Env ℚ) (n : Nat) (ds : List Draw) : Option (Env ℚ × List (Nat × Nat)) := match e.randSuccs n ds with | .ok x => some x | .error _ => none

/-- C119: hypotheses are met by a call that lists a new state and the goal -/
example : ∃ e e' l, ReachedR arm32 e ∧ ManyVals arm32 ∧ Canon arm32 arm32.startCoord ∧ (∀ d ∈ [Draw.mk 0 [(true, 3), (true, 20)], Draw.mk 1 [(true, 3), (true, 20)]], DrawOk arm32 d) ∧
    e.randSuccs 0 [⟨0, [(true, 3), (true, 20)]⟩, ⟨1, [(true, 9), (true, 20)]⟩] = .ok (e', l) ∧ l = [(2, 1), (1, 2)] := by
  have h : ((initOf arm32).bind (fun e => (randOf e 0 [⟨0, [(true, 3), (true, 20)]⟩, ⟨1, [(true, 9), (true, 20)]⟩]).bind (fun r => some r.2))) = some [(2, 1), (1, 2)] := by
    decide +kernel
  obtain ⟨e, he, h⟩ := Option.bind_eq_some_iff.mp h
  obtain ⟨r, hr, h⟩ := Option.bind_eq_some_iff.mp h
  simp only [Option.some.injEq] at h
  refine ⟨e, r.1, r.2, ⟨_, e, [], initOf_some he, by simp, rfl⟩, ?_, ?_, ?_, ?_, h⟩
  · intro l hl
    simp only [arm32, List.mem_cons, List.not_mem_nil, or_false] at hl
    rcases hl with rfl | rfl <;> simp [lk32]
  · have : arm32.startCoord = [0, 12] := by decide +kernel
    rw [this]
    exact .cons (by decide) (.cons (by decide) .nil)
  · intro d hd
    simp only [List.mem_cons, List.not_mem_nil, or_false] at hd
    rcases hd with rfl | rfl <;> exact ⟨rfl, by simp⟩
  · unfold randOf at hr
    split at hr
    · next h' => cases hr; exact h'
    · cases hr

end Sbpl.ArmExProps
