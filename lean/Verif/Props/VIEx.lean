import Verif.Props.VI
import Mathlib.Tactic.IntervalCases
/-! # C120–C127: concrete problems for the value iteration planner -/

namespace Sbpl
namespace VIExProps
open MDP VISpec VI VIProps

/-- state 0 (start): try to jump to the goal 2, at cost 2, successful with probability 1/2, or walk to 1 at cost 3; state 1: walk to the goal -/
def acts1 (s : Int) : List Action :=
  if s = 0 then [⟨0, [(2, 2, 1/2), (0, 2, 1/2)]⟩, ⟨1, [(1, 3, 1)]⟩]
  else if s = 1 then [⟨2, [(2, 3, 1)]⟩] else []

def env1 : VEnv := ⟨acts1, fun s => if s = 2 then 0 else if s = 0 ∨ s = 1 then 3 else 0⟩

/-- the condition on every action, from its finitely many cases -/
theorem of_cases {P : Int → Action → Prop} (h0 : P 0 ⟨0, [(2, 2, 1/2), (0, 2, 1/2)]⟩) (h1 : P 0 ⟨1, [(1, 3, 1)]⟩) (h2 : P 1 ⟨2, [(2, 3, 1)]⟩) : ∀ s, ∀ a ∈ acts1 s, P s a := by
  intro s a ha
  unfold acts1 at ha
  split at ha
  · rename_i e; subst e
    simp only [List.mem_cons, List.not_mem_nil, or_false] at ha
    rcases ha with rfl | rfl
    · exact h0
    · exact h1
  · split at ha
    · rename_i e; subst e
      simp only [List.mem_cons, List.not_mem_nil, or_false] at ha
      subst ha; exact h2
    · exact absurd ha (by simp)

theorem proper1 : Proper env1.acts where
  prob := of_cases (P := fun _ a => ∀ o ∈ a.outs, 0 ≤ o.2.2) (by simp) (by simp) (by simp)
  total := of_cases (P := fun _ a => (a.outs.map (fun o => o.2.2)).sum = 1) (by norm_num) (by norm_num) (by norm_num)
  cost := of_cases (P := fun _ a => ∀ o ∈ a.outs, 0 ≤ o.2.1) (by simp) (by simp) (by simp)

theorem unit1 : UnitCost env1.acts := of_cases (P := fun _ a => ∀ o ∈ a.outs, 1 ≤ o.2.1) (by simp) (by simp) (by simp)

theorem hcons1 : HConsistent env1.acts 2 env1.h where
  atGoal := rfl
  nonneg := by intro s; simp only [env1]; split <;> [norm_num; split <;> norm_num]
  bounded := by intro s; simp only [env1]; split <;> [norm_num; split <;> norm_num]
  step := fun s _ => of_cases (P := fun s a => (env1.h s : ℚ) ≤ expect a (fun c t => c + env1.h t)) (by norm_num [env1, expect]) (by norm_num [env1, expect]) (by norm_num [env1, expect]) s

theorem closed1 : Closed env1.acts [0, 1, 2] where
  nodup := by decide
  closed := fun s _ => of_cases (P := fun _ a => ∀ o ∈ a.outs, o.1 ∈ [(0 : Int), 1, 2]) (by simp) (by simp) (by simp) s

theorem reach1 : ∀ s ∈ [(0 : Int), 1, 2], CanReach env1.acts 2 s := by
  intro s hs
  simp only [List.mem_cons, List.not_mem_nil, or_false] at hs
  rcases hs with rfl | rfl | rfl
  · exact .step (a := ⟨0, [(2, 2, 1/2), (0, 2, 1/2)]⟩) (o := (2, 2, 1/2)) (by simp [env1, acts1]) (by simp) (by norm_num) .goal
  · exact .step (a := ⟨2, [(2, 3, 1)]⟩) (o := (2, 3, 1)) (by simp [env1, acts1]) (by simp) (by norm_num) .goal
  · exact .goal

/-- the policy that walks from 0 over 1 to 2 -/
def walk1 (s : Int) : Option Action := if s = 0 then some ⟨1, [(1, 3, 1)]⟩ else if s = 1 then some ⟨2, [(2, 3, 1)]⟩ else none

theorem walk1_legal : LegalPol env1.acts walk1 := by
  intro s a h
  unfold walk1 at h
  split at h
  · rename_i e; cases h; simp [env1, acts1, e]
  · split at h
    · rename_i e; cases h; simp [env1, acts1, e]
    · cases h

theorem walk1_at2 : ∀ k, polCost walk1 2 k 2 = 0
  | 0 => rfl
  | k + 1 => by simp [polCost]

theorem walk1_cost (k : Nat) : polCost walk1 2 k 0 ≤ 6 := by
  match k with
  | 0 => norm_num [polCost]
  | 1 => norm_num [polCost, walk1, expect]
  | k + 2 => norm_num [polCost, walk1, expect, walk1_at2]

/-- C120–C125 apply: a new planner with enough time converges; its values are bounded by the cost of the walk, its policy reaches the goal and costs at most 50/49 of the walk; the evaluation reports a full policy -/
example : ∃ N, ∀ fuel, N ≤ fuel → ∃ r, replan env1 0 2 (fun _ => true) fuel (fresh env1) INFINITECOST [] = some r ∧ r.bell ≤ ERRDELTA ∧ r.st.v 0 ≤ 6 ∧
    (∀ k, polCost r.st.best 2 k 0 ≤ 50 / 49 * 6) ∧ (∀ k : Nat, k * (1 - polReach r.st.best 2 k 0) ≤ 50 / 49 * 6) ∧
    ∃ N', ∀ fuel', N' ≤ fuel' → ∃ e, evaluate r.policy 0 2 false fuel' = .ok e ∧ e.full = true := by
  obtain ⟨N, hN⟩ := replan_converges (start := 0) proper1 hcons1 closed1 (by simp) reach1 INFINITECOST []
  refine ⟨N, fun fuel hf => ?_⟩
  obtain ⟨r, h1, h2⟩ := hN (fun _ => true) fuel hf
  have hb := h2 (fun _ => rfl)
  have hreach : ∀ ε : ℚ, 0 < ε → ∃ k, 1 - ε ≤ polReach walk1 2 k 0 := fun ε he => ⟨2, by norm_num [polReach, walk1, expect]; linarith⟩
  have hv : r.st.v 0 ≤ 6 := value_le_policy proper1 hcons1 (Hist.call Hist.new h1) closed1 (by simp) walk1_legal hreach walk1_cost
  refine ⟨r, h1, hb, hv, fun k => ?_, fun k => ?_, ?_⟩
  · exact converged_optimal proper1 unit1 hcons1 err_lt_inf h1 hb closed1 (by simp) walk1_legal hreach walk1_cost k
  · have := (converged_cost proper1 unit1 hcons1 err_lt_inf h1 hb k).2
    linarith
  · obtain ⟨N', h⟩ := policy_evaluated proper1 unit1 hcons1 err_lt_inf h1 hb
    refine ⟨N', fun f hf => ?_⟩
    obtain ⟨e, e1, e2, _⟩ := h f hf
    exact ⟨e, e1, e2⟩

/-- numbers reported by a run -/
def report (o : Option Res) : Option (List Int × List (Option Int) × Bool × Option (Bool × Bool)) :=
  o.map (fun r => (r.policy.map (fun s => s.id), r.policy.map (fun s => s.actions.head?.map (fun a => a.id)), decide (r.bell ≤ ERRDELTA),
    match r.eval with | .ok e => some (e.full, e.cyc) | .error _ => none))

/-- the run: the planner prefers jumping (expected cost 4) to walking (cost 6) -/
example : report (replan env1 0 2 (fun _ => true) 30 (fresh env1) INFINITECOST []) = some ([0, 2], [some 0, none], true, some (true, true)) := by decide +kernel

/-- with a time limit of one pass it returns 1 as well -/
example : (replan env1 0 2 (fun k => decide (k < 1)) 30 (fresh env1) INFINITECOST []).map (fun r => (r.ret, r.bell)) = some (1, (INFINITECOST : ℚ)) := by decide +kernel

/-! ## The goal cannot be reached -/

/-- one action, from 0 to 1 -/
def env2 : VEnv := ⟨fun s => if s = 0 then [⟨0, [(1, 1, 1)]⟩] else [], fun _ => 0⟩

theorem acts2 {P : Int → Action → Prop} (h : P 0 ⟨0, [(1, 1, 1)]⟩) : ∀ s, ∀ a ∈ env2.acts s, P s a := by
  intro s a ha
  simp only [env2] at ha
  split at ha
  · rename_i e; subst e
    rw [List.mem_singleton] at ha
    subst ha; exact h
  · exact absurd ha (by simp)

/-- C123 applies: the goal 2 is never reached, the planner only stops when its time is over, and returns 1 -/
example {clk : Nat → Bool} {fuel : Nat} {r : Res} (h : replan env2 0 2 clk fuel (fresh env2) INFINITECOST [] = some r) : ERRDELTA < r.bell ∧ (∃ k, clk k = false) ∧ r.ret = 1 := by
  have hp : Proper env2.acts := ⟨acts2 (P := fun _ a => ∀ o ∈ a.outs, 0 ≤ o.2.2) (by simp), acts2 (P := fun _ a => (a.outs.map (fun o => o.2.2)).sum = 1) (by norm_num),
    acts2 (P := fun _ a => ∀ o ∈ a.outs, 0 ≤ o.2.1) (by simp)⟩
  have hu : UnitCost env2.acts := acts2 (P := fun _ a => ∀ o ∈ a.outs, 1 ≤ o.2.1) (by simp)
  have hh : HConsistent env2.acts 2 env2.h := ⟨rfl, fun _ => le_refl _, fun _ => by norm_num [env2], fun s _ => acts2 (P := fun s a => (env2.h s : ℚ) ≤ expect a (fun c t => c + env2.h t)) (by norm_num [env2, expect]) s⟩
  have hn : ¬ CanReach env2.acts 2 0 := by
    have : ∀ s, CanReach env2.acts 2 s → s = 2 := by
      intro s hs
      induction hs with
      | goal => rfl
      | @step s a o ha ho _ _ ih =>
        exfalso
        have : ∀ s, ∀ a ∈ env2.acts s, ∀ o ∈ a.outs, o.1 ≠ 2 := acts2 (P := fun _ a => ∀ o ∈ a.outs, o.1 ≠ 2) (by simp)
        exact this s a ha o ho ih
    intro h; exact absurd (this 0 h) (by norm_num)
  obtain ⟨h1, h2⟩ := unreachable_never_converges hp hu hh err_lt_inf hn h
  exact ⟨h1, h2, (replan_answer h).1⟩

/-! ## Marks left by the previous call -/

/-- from 0 (start) either to 3 (cost 2) and on to the goal 9 (cost 50), or to 1 (cost 1), 2 (cost 1) and the goal (cost 100) -/
def env3 : VEnv := ⟨fun s => if s = 0 then [⟨0, [(3, 2, 1)]⟩, ⟨1, [(1, 1, 1)]⟩] else if s = 1 then [⟨2, [(2, 1, 1)]⟩] else if s = 2 then [⟨3, [(9, 100, 1)]⟩] else if s = 3 then [⟨4, [(9, 50, 1)]⟩] else [], fun _ => 0⟩

theorem acts3 {P : Int → Action → Prop} (h0 : P 0 ⟨0, [(3, 2, 1)]⟩) (h1 : P 0 ⟨1, [(1, 1, 1)]⟩) (h2 : P 1 ⟨2, [(2, 1, 1)]⟩) (h3 : P 2 ⟨3, [(9, 100, 1)]⟩) (h4 : P 3 ⟨4, [(9, 50, 1)]⟩) : ∀ s, ∀ a ∈ env3.acts s, P s a := by
  intro s a ha
  simp only [env3] at ha
  repeat' split at ha
  all_goals first
    | (rename_i e; subst e; simp only [List.mem_cons, List.not_mem_nil, or_false] at ha; first | (rcases ha with rfl | rfl; exacts [h0, h1]) | (subst ha; assumption))
    | exact absurd ha (by simp)

theorem proper3 : Proper env3.acts where
  prob := acts3 (P := fun _ a => ∀ o ∈ a.outs, 0 ≤ o.2.2) (by simp) (by simp) (by simp) (by simp) (by simp)
  total := acts3 (P := fun _ a => (a.outs.map (fun o => o.2.2)).sum = 1) (by norm_num) (by norm_num) (by norm_num) (by norm_num) (by norm_num)
  cost := acts3 (P := fun _ a => ∀ o ∈ a.outs, 0 ≤ o.2.1) (by simp) (by simp) (by simp) (by simp) (by simp)

theorem unit3 : UnitCost env3.acts := acts3 (P := fun _ a => ∀ o ∈ a.outs, 1 ≤ o.2.1) (by simp) (by simp) (by simp) (by simp) (by simp)

theorem hcons3 : HConsistent env3.acts 9 env3.h where
  atGoal := rfl
  nonneg := fun _ => le_refl _
  bounded := fun _ => by norm_num [env3]
  step := fun s _ => acts3 (P := fun s a => (env3.h s : ℚ) ≤ expect a (fun c t => c + env3.h t)) (by norm_num [env3, expect]) (by norm_num [env3, expect]) (by norm_num [env3, expect]) (by norm_num [env3, expect]) (by norm_num [env3, expect]) s

/-- two calls of replan of one planner, the first with time for two passes, the second with unlimited time: values of the answer -/
def twoCalls (fuel : Nat) : Option (Res × Res) :=
  (replan env3 0 9 (fun k => decide (k < 2)) fuel (fresh env3) INFINITECOST []).bind (fun r1 => (replan env3 0 9 (fun _ => true) fuel r1.st r1.bell []).map (fun r2 => (r1, r2)))

def stale (r : Res × Res) : Bool := decide (r.2.bell ≤ ERRDELTA) && decide (polCost r.2.st.best 9 3 0 = 102) && decide (polReach r.2.st.best 9 3 0 = 1) && decide (r.2.st.v 0 = 2)

theorem twoCalls_stale : (twoCalls 10).map stale = some true := by decide +kernel

/-- **C127 (refuted expectation).**  `InitializePlanner` sets the iteration number back to 0 but the marks of the states stay.  A state with an old mark is taken for one that was already visited, so after a call that ran out of time
the next one can stop with "converged" although its policy costs almost twice the optimum: here the policy costs 102 (the value of the start state is 2), while there is a plan that costs 52. -/
theorem stale_marks : ∃ r1 r2 : Res, replan env3 0 9 (fun k => decide (k < 2)) 10 (fresh env3) INFINITECOST [] = some r1 ∧ replan env3 0 9 (fun _ => true) 10 r1.st r1.bell [] = some r2 ∧
    r2.bell ≤ ERRDELTA ∧ polCost r2.st.best 9 3 0 = 102 ∧ polReach r2.st.best 9 3 0 = 1 ∧
    ∃ pl : Plan, pl.Legal env3.acts 9 0 ∧ pl.Sure 9 0 ∧ pl.cost = 52 := by
  have h := twoCalls_stale
  unfold twoCalls at h
  cases h1 : replan env3 0 9 (fun k => decide (k < 2)) 10 (fresh env3) INFINITECOST [] with
  | none => rw [h1] at h; simp at h
  | some r1 =>
    rw [h1] at h
    simp only [Option.bind_some] at h
    cases h2 : replan env3 0 9 (fun _ => true) 10 r1.st r1.bell [] with
    | none => rw [h2] at h; simp at h
    | some r2 =>
      rw [h2] at h
      simp only [Option.map_some, Option.some.injEq, stale, Bool.and_eq_true, decide_eq_true_eq] at h
      refine ⟨r1, r2, rfl, h2, h.1.1.1, h.1.1.2, h.1.2, ?_⟩
      refine ⟨.act ⟨0, [(3, 2, 1)]⟩ (fun _ => .act ⟨4, [(9, 50, 1)]⟩ (fun _ => .stop)), ?_, ?_, ?_⟩
      · refine ⟨by norm_num, by simp [env3], fun o ho => ?_⟩
        simp only [List.mem_singleton] at ho
        subst ho
        exact ⟨by norm_num, by simp [env3], fun o _ => trivial⟩
      · intro o ho o' ho'
        simp only [List.mem_singleton] at ho'
        subst ho'
        rfl
      · norm_num [Plan.cost, expect]

/-- C126: after the run of the first example the static variable is at most 0.01, so a planner for the second problem does nothing -/
example : (replan env1 0 2 (fun _ => true) 30 (fresh env1) INFINITECOST []).bind (fun r => (replan env3 0 9 (fun _ => true) 30 (fresh env3) r.bell []).map (fun r' => (r'.ret, r'.policy.map (fun s => s.id), r'.policy.map (fun s => s.actions.length)))) =
    some (1, [0], [0]) := by decide +kernel

end VIExProps
end Sbpl
