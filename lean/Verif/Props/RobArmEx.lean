import Verif.Props.RobArmMore
import Verif.Props.RobArmTrig
import Mathlib.Tactic.IntervalCases
/-!
# The robot arm: concrete cases (C110 - C118) and the refuted expectation about the configuration with all joints 0 (C114)
-/

namespace Sbpl.ArmExProps
open RobArm ArmSpec ArmPr ArmProps ArmMoreProps ArmARAProps GraphSpec PlannerSpec ARA

/-! ## A two-link arm on a 4 x 4 map with right-angle steps -/

def cs4 (k : Nat) : ℚ := if k % 4 = 0 then 1 else if k % 4 = 2 then -1 else 0
def sn4 (k : Nat) : ℚ := if k % 4 = 1 then 1 else if k % 4 = 3 then -1 else 0
def lk (a : ℚ) : Link ℚ := ⟨1, 4, 1, a, cs4, sn4⟩
/-- base in cell (1, 3), an obstacle in cell (0, 3), goal cell (gx, gy), start angles a, b in steps -/
def arm (gx gy : Nat) (a b : ℚ) : Cfg ℚ := ⟨4, 4, 4, 4, 1, 1, gx, gy, fun x y => if x = 0 ∧ y = 3 then 1 else 0, [lk a, lk b]⟩

def initOf (c : Cfg ℚ) : Option (Env ℚ) := match c.init (fun _ _ => 7) with | .ok x => x | .error _ => none
def succsOf (e : Env ℚ) (n : Nat) : Option (Env ℚ × List (Nat × Nat)) := match e.getSuccs n with | .ok x => some x | .error _ => none
def hOf (c : Cfg ℚ) : Nat → Nat → Nat := match c.computeHeur (fun _ _ => 7) with | .ok h => h | .error _ => fun _ _ => 0

theorem initOf_some {c : Cfg ℚ} {e : Env ℚ} (h : initOf c = some e) : c.init (fun _ _ => 7) = .ok (some e) := by
  unfold initOf at h; split at h
  · next h' => rw [h', h]
  · cases h

theorem succsOf_some {e : Env ℚ} {n : Nat} {r : Env ℚ × List (Nat × Nat)} (h : succsOf e n = some r) : e.getSuccs n = .ok r := by
  unfold succsOf at h; split at h
  · next h' => cases h; exact h'
  · cases h

theorem arm_ok (gx gy : Nat) (a b : ℚ) : CfgOk (arm gx gy a b) := by
  refine ⟨by norm_num [arm], by norm_num [arm], by norm_num [arm], by simp [arm], by simp [arm], by simp [arm, INFINITECOST], ?_⟩
  intro l hl
  simp only [arm, List.mem_cons, List.not_mem_nil, or_false] at hl
  rcases hl with rfl | rfl <;> simp [lk]

theorem arm_fine (gx gy : Nat) (a b : ℚ) : FineSteps (arm gx gy a b) := by
  have : ∀ k, k < 4 → |1 * cs4 ((k + 1) % 4) - 1 * cs4 k| ≤ 1 ∧ |1 * sn4 ((k + 1) % 4) - 1 * sn4 k| ≤ (1 : ℚ) := by
    intro k hk
    interval_cases k <;> norm_num [cs4, sn4]
  intro l hl k hk
  simp only [arm, List.mem_cons, List.not_mem_nil, or_false] at hl
  rcases hl with rfl | rfl <;> exact this k hk

theorem arm_ne (gx gy : Nat) (a b : ℚ) : (arm gx gy a b).links ≠ [] := by simp [arm]

theorem start0 (gx gy : Nat) : (arm gx gy 0 0).startCoord = [0, 0] := by
  show [coordOf (0 : ℚ) 1 4, coordOf (0 : ℚ) 1 4] = _
  decide +kernel
theorem start1 (gx gy : Nat) : (arm gx gy 0 1).startCoord = [0, 1] := by
  show [coordOf (0 : ℚ) 1 4, coordOf (1 : ℚ) 1 4] = _
  decide +kernel

theorem canon_iff {gx gy : Nat} {a b : ℚ} {k : List Nat} : Canon (arm gx gy a b) k ↔ ∃ i j, k = [i, j] ∧ i < 4 ∧ j < 4 := by
  unfold Canon arm
  constructor
  · intro h
    cases h with
    | cons h1 h2 => cases h2 with
      | cons h3 h4 => cases h4; exact ⟨_, _, rfl, h1, h3⟩
  · rintro ⟨i, j, rfl, hi, hj⟩
    exact .cons hi (.cons hj .nil)

theorem valid_iff {gx gy : Nat} {a b : ℚ} {i j : Nat} : Valid (arm gx gy a b) [i, j] ↔ (arm gx gy a b).isValid [i, j] = .ok true :=
  (isValid_true (arm_ok gx gy a b) (show IsConf (arm gx gy a b) [i, j] from rfl)).symm

/-! ### Hypotheses are met -/

/-- C110: a valid configuration and a colliding one -/
example : Valid (arm 0 2 0 0) [1, 2] ∧ ¬ Valid (arm 0 2 0 0) [2, 1] := by
  rw [valid_iff, valid_iff]
  constructor <;> decide +kernel

/-- C110: the end effector of a configuration at the goal -/
example : AtGoal (arm 0 2 0 0) [1, 2] := by
  rw [atGoal_iff (arm_ok 0 2 0 0) (arm_ne 0 2 0 0) (by rw [valid_iff]; decide +kernel)]
  decide +kernel

/-- C111 - C113: an initialised environment, with a state expanded -/
example : ∃ e e' l, Reached (arm 0 2 0 1) e ∧ Canon (arm 0 2 0 1) (arm 0 2 0 1).startCoord ∧ e.getSuccs 0 = .ok (e', l) ∧ l = [(2, 1), (1, 1), (3, 1)] := by
  have h : ((initOf (arm 0 2 0 1)).bind (fun e => (succsOf e 0).bind (fun r => some r.2))) = some [(2,1),(1,1),(3,1)] := by decide +kernel
  obtain ⟨e, he, h⟩ := Option.bind_eq_some_iff.mp h
  obtain ⟨r, hr, h⟩ := Option.bind_eq_some_iff.mp h
  simp only [Option.some.injEq] at h
  refine ⟨e, r.1, r.2, ⟨_, e, [], initOf_some he, rfl⟩, ?_, succsOf_some hr, h⟩
  rw [start1, canon_iff]
  exact ⟨0, 1, rfl, by decide, by decide⟩

/-- C111: the heuristic is not trivial: 3 moves from cell (3, 3) to cell (0, 2) -/
example : hOf (arm 0 2 0 0) (ind 4 (0, 2)) (ind 4 (3, 3)) = 3 := by decide +kernel

/-- C111: a map that is not square -/
example : ∃ c : Cfg ℚ, CfgOk c ∧ c.H < c.W := by
  refine ⟨⟨5, 4, 5, 4, 1, 1, 0, 0, fun _ _ => 0, []⟩, ⟨?_, ?_, ?_, ?_, ?_, ?_, ?_⟩, ?_⟩ <;> norm_num [INFINITECOST]

/-- C113: harmless, because it is the start -/
example : ZeroHarmless (arm 0 2 0 0) := .inl (by rw [start0]; rfl)

/-! ### A planner on the arm: from [0, 0] to the goal cell (0, 2) -/

def num (k : List Nat) : Nat := match k with
  | [i, j] => if 4 * i + j = 0 then 0 else 4 * i + j + 1
  | _ => 1
def den (c : Cfg ℚ) (n : Nat) : Option (List Nat) :=
  let j := if n = 0 then 0 else n - 1
  if n ≠ 1 ∧ j < 16 ∧ c.isValid [j / 4, j % 4] = .ok true then some [j / 4, j % 4] else none

theorem arm_numbering (gx gy : Nat) : ANumbering (arm gx gy 0 0) num (den (arm gx gy 0 0)) := by
  refine ⟨?_, ?_, ?_, ?_⟩
  · intro k hc hv
    obtain ⟨i, j, rfl, hi, hj⟩ := canon_iff.mp hc
    rw [valid_iff] at hv
    by_cases h : 4 * i + j = 0
    · obtain ⟨rfl, rfl⟩ : i = 0 ∧ j = 0 := by omega
      show den (arm gx gy 0 0) 0 = _
      unfold den
      exact if_pos ⟨by decide, by decide, hv⟩
    · have en : num [i, j] = 4 * i + j + 1 := if_neg h
      rw [en]
      unfold den
      dsimp only
      rw [if_neg (by omega : ¬ 4 * i + j + 1 = 0)]
      have e1 : (4 * i + j + 1 - 1) / 4 = i := by omega
      have e2 : (4 * i + j + 1 - 1) % 4 = j := by omega
      rw [e1, e2, if_pos ⟨by omega, by omega, hv⟩]
  · intro k hc _
    obtain ⟨i, j, rfl, hi, hj⟩ := canon_iff.mp hc
    unfold num
    dsimp only
    split <;> omega
  · intro i k hi hd
    obtain ⟨j, hj⟩ : ∃ j, j = if i = 0 then 0 else i - 1 := ⟨_, rfl⟩
    have hd : (if i ≠ 1 ∧ j < 16 ∧ (arm gx gy 0 0).isValid [j / 4, j % 4] = .ok true then some [j / 4, j % 4] else none) = some k := by rw [hj]; exact hd
    by_cases h : i ≠ 1 ∧ j < 16 ∧ (arm gx gy 0 0).isValid [j / 4, j % 4] = .ok true
    · rw [if_pos h] at hd
      obtain rfl : [j / 4, j % 4] = k := by simpa using hd
      rw [canon_iff, valid_iff]
      refine ⟨?_, ⟨_, _, rfl, by omega, by omega⟩, h.2.2⟩
      show (if 4 * (j / 4) + j % 4 = 0 then 0 else 4 * (j / 4) + j % 4 + 1) = i
      split at hj <;> split <;> omega
    · rw [if_neg h] at hd; cases hd
  · rw [start0]; rfl

def araOps : List Op := [.setGoal 1, .setStart 0]

theorem araOps_ok : ∀ op ∈ araOps, OpOk op := by
  intro op h
  simp only [araOps, List.mem_cons, List.not_mem_nil, or_false] at h
  rcases h with rfl | rfl <;> trivial

theorem run_goal02 : ARAProps.planRun (armPEnv (arm 0 2 0 0) (hOf (arm 0 2 0 0)) num (den (arm 0 2 0 0))) true 1 1 1 1 false araOps [100] =
    some ⟨true, [0, 5, 6, 1], 3, some 1, [[0, 5, 2, 6]]⟩ := by decide +kernel

/-- C116, C117: all hypotheses are met by a run that finds a motion of three moves -/
example : ∃ (h : Nat → Nat → Nat) (st st' : ARA) (res : Result), (∃ junk, (arm 0 2 0 0).computeHeur junk = .ok h) ∧ ANumbering (arm 0 2 0 0) num (den (arm 0 2 0 0)) ∧
    (∀ op ∈ araOps, OpOk op) ∧ lastEnv (armPEnv (arm 0 2 0 0) h num (den (arm 0 2 0 0))) araOps = armPEnv (arm 0 2 0 0) h num (den (arm 0 2 0 0)) ∧
    (ARA.init (armPEnv (arm 0 2 0 0) h num (den (arm 0 2 0 0))) true 1 1 1 1 false).run araOps = some st ∧ lastStart araOps = some 0 ∧ lastGoal araOps = some 1 ∧
    st.replan [100] = .ok (st', res) ∧ res.found = true ∧ res.finalEps = some 1 ∧ res.cost = 3 ∧ ZeroHarmless (arm 0 2 0 0) ∧
    Canon (arm 0 2 0 0) (arm 0 2 0 0).startCoord ∧ Valid (arm 0 2 0 0) (arm 0 2 0 0).startCoord ∧ InMap (arm 0 2 0 0) (0, 2) := by
  obtain ⟨st, st', h1, h2⟩ := ARAProps.planRun_some run_goal02
  have hh : (arm 0 2 0 0).computeHeur (fun _ _ => 7) = .ok (hOf (arm 0 2 0 0)) := by
    obtain ⟨h', e', _⟩ := computeHeur_square (arm_ok 0 2 0 0).small (arm_ok 0 2 0 0).w16 rfl (fun _ _ => 7)
    unfold hOf; rw [e']
  refine ⟨_, st, st', _, ⟨_, hh⟩, arm_numbering 0 2, araOps_ok, rfl, h1, rfl, rfl, h2, rfl, rfl, rfl, .inl (by rw [start0]; rfl), ?_, ?_, by simp [InMap, arm]⟩
  · rw [start0, canon_iff]; exact ⟨0, 0, rfl, by decide, by decide⟩
  · rw [start0, valid_iff]; decide +kernel

/-! ## The configuration with all joints 0 -/

theorem low_unreachable {a b : ℚ} {k : List Nat} (hk : k.length = 2) : ¬ AtGoal (arm 0 0 a b) k := by
  match k, hk with
  | [i, j], _ =>
    intro h
    have sn1 : ∀ i, sn4 i ≤ 1 := by intro i; unfold sn4; split_ifs <;> norm_num
    have h4 := h.2.2.2
    simp only [effector, segments, arm, lk, Cfg.base, List.map_cons, List.map_nil, List.getLast?_cons_cons, List.getLast?_singleton, Option.getD_some] at h4
    have := sn1 i
    have := sn1 j
    norm_num at h4
    linarith

/-- **C114 (refuted expectation)** "A successful plan ends with the end effector in the goal cell" fails: for this arm no configuration at all has its end effector in the
goal cell, and yet GetSuccs of the start lists the goal state with cost 1 (namely for the configuration with all joints 0, whose end effector is elsewhere), so that there is a
path of cost 1 from the start to the goal. -/
theorem zero_is_goal_refuted : ∃ (c : Cfg ℚ) (e e' : Env ℚ) (l : List (Nat × Nat)), CfgOk c ∧ FineSteps c ∧ Canon c c.startCoord ∧ Reached c e ∧
    (∀ k, IsConf c k → ¬ AtGoal c k) ∧ e.getSuccs 0 = .ok (e', l) ∧ (1, 1) ∈ l := by
  have h : ((initOf (arm 0 0 0 1)).bind (fun e => (succsOf e 0).bind (fun r => some r.2))) = some [(2,1),(1,1),(3,1)] := by decide +kernel
  obtain ⟨e, he, h⟩ := Option.bind_eq_some_iff.mp h
  obtain ⟨r, hr, h⟩ := Option.bind_eq_some_iff.mp h
  simp only [Option.some.injEq] at h
  refine ⟨arm 0 0 0 1, e, r.1, r.2, arm_ok 0 0 0 1, arm_fine 0 0 0 1, ?_, ⟨_, e, [], initOf_some he, rfl⟩, fun k hk => low_unreachable hk, succsOf_some hr, by rw [h]; decide⟩
  rw [start1, canon_iff]
  exact ⟨0, 1, rfl, by decide, by decide⟩

/-- C118: a start angle that is converted, and one that is not (the negative one) -/
example : coordOf (3 : ℚ) 1 4 = 3 ∧ coordOf (42 / 10 : ℚ) 1 4 = 0 ∧ coordOf (-2 : ℚ) 1 4 = 65535 := by decide +kernel

/-! ## A real link -/

/-- C115: a link as long as a cell: steps of 60 degrees, 6 values -/
example : ∃ l : Link ℝ, ArmTrigProps.RealLink 1 Real.pi l ∧ l.vals = 6 := by
  have ha : Real.arcsin (1 / 2 / 1) = Real.pi / 6 := by
    apply Real.arcsin_eq_of_sin_eq
    · rw [Real.sin_pi_div_six]; norm_num
    · constructor <;> linarith [Real.pi_pos]
  refine ⟨⟨1, 6, Real.pi / 3, 0, fun k => Real.cos (k * (Real.pi / 3)), fun k => Real.sin (k * (Real.pi / 3))⟩, ⟨?_, ?_, ?_, fun _ => rfl, fun _ => rfl, ?_⟩, rfl⟩
  · norm_num
  · show Real.pi / 3 = 2 * Real.arcsin (1 / 2 / 1)
    rw [ha]; ring
  · show ((6 : Nat) : Int) = ctrunc (2 * Real.pi / (2 * Real.arcsin (1 / 2 / 1)) + 99999999 / 100000000)
    rw [ha]
    have hp := Real.pi_pos
    have e : 2 * Real.pi / (2 * (Real.pi / 6)) = 6 := by field_simp
    rw [e]
    unfold ctrunc
    rw [if_pos (by norm_num)]
    symm
    rw [Int.floor_eq_iff]
    norm_num
  · show 2 * Real.pi ≤ ((6 : Nat) : ℝ) * (Real.pi / 3)
    norm_num
    linarith [Real.pi_pos]

end Sbpl.ArmExProps
