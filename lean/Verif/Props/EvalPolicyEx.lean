import Verif.Props.EvalPolicyPc
/-! # EvaluatePolicy: examples and refuted expectations -/

namespace Sbpl.EvProps
open MDP MDPSpec EvSpec EvPr

/-- a policy as a table -/
theorem policy_of {m : List State} {start : Int} (h1 : m.Pairwise (fun s t => s.id ≠ t.id)) (h2 : ∀ s ∈ m, s.actions.length ≤ 1)
    (h3 : ∀ s ∈ m, ∀ a ∈ s.actions, ∀ o ∈ a.outs, ∃ t ∈ m, t.id = o.1) (h4 : ∃ s ∈ m, s.id = start)
    (h5 : ∀ s ∈ m, ∀ a ∈ s.actions, ∀ o ∈ a.outs, 0 ≤ o.2.1 ∧ 0 ≤ o.2.2) (h6 : ∀ s ∈ m, ∀ a ∈ s.actions, (a.outs.map (fun o => o.2.2)).sum = 1) : Policy m start :=
  ⟨⟨h1, h2, h3⟩, h4, fun s hs a ha o ho => (h5 s hs a ha o ho).1, fun s hs a ha o ho => (h5 s hs a ha o ho).2, h6⟩

/-- state 1 reaches state 2 with probability 1/2 and stays otherwise; 2 leads to the goal 3 -/
def D1 : List State := [⟨1, [⟨0, [(2, 3, 1/2), (1, 1, 1/2)]⟩], []⟩, ⟨2, [⟨0, [(3, 2, 1)]⟩], []⟩, ⟨3, [], []⟩]

theorem D1_policy : Policy D1 1 := policy_of (by decide +kernel) (by decide +kernel) (by decide +kernel) (by decide +kernel) (by decide +kernel) (by decide +kernel)
theorem D1_complete : Complete D1 3 := by unfold Complete; decide +kernel

/-- the hypotheses of C103–C105 are met by a policy with a cycle; its expected cost is 6, the reported value 95/16 -/
example : evaluate D1 1 3 false 20 = .ok ⟨95 / 16, true, 1 / 2, 0, true⟩ := by decide +kernel
example : ∀ s ∈ D1, ∃ k, 0 < reachIn D1 3 k s.id := by
  have : ∀ s ∈ D1, 0 < reachIn D1 3 3 s.id := by decide +kernel
  exact fun s hs => ⟨3, this s hs⟩
example : (∀ k, costIn D1 3 k 1 ≤ 95 / 16 + stepsIn D1 3 k 1 / 10) := (evaluate_value D1_policy D1_complete (c0 := false) (fuel := 20) (r := ⟨95 / 16, true, 1 / 2, 0, true⟩) (by decide +kernel)).2

/-- a policy whose states 1 and 2 alternate for ever -/
def D0 : List State := [⟨1, [⟨0, [(2, 1, 1)]⟩], []⟩, ⟨2, [⟨0, [(1, 1, 1)]⟩], []⟩, ⟨3, [], []⟩]
theorem D0_never : ∀ k, reachIn D0 3 k 1 = 0 ∧ reachIn D0 3 k 2 = 0
  | 0 => by decide +kernel
  | k + 1 => by
    have h1 : outcomes D0 1 = [(2, 1, 1)] := rfl
    have h2 : outcomes D0 2 = [(1, 1, 1)] := rfl
    rw [reachIn, reachIn, h1, h2]
    simp [(D0_never k).1, (D0_never k).2]
/-- C105: it is never evaluated -/
example {fuel : Nat} : evaluate D0 1 3 false fuel = .error .noTermination :=
  evaluate_hangs (policy_of (by decide +kernel) (by decide +kernel) (by decide +kernel) (by decide +kernel) (by decide +kernel) (by decide +kernel))
    (by unfold Complete; decide +kernel) (by decide +kernel) ⟨_, List.mem_cons_self, fun k => (D0_never k).1⟩

/-- a chain of three certain steps, listed from the goal to the start -/
def D2 : List State := [⟨4, [], []⟩, ⟨3, [⟨0, [(4, 1, 1)]⟩], []⟩, ⟨2, [⟨0, [(3, 1, 1)]⟩], []⟩, ⟨1, [⟨0, [(2, 1, 1)]⟩], []⟩]
theorem D2_policy : Policy D2 1 := policy_of (by decide +kernel) (by decide +kernel) (by decide +kernel) (by decide +kernel) (by decide +kernel) (by decide +kernel)
theorem D2_complete : Complete D2 4 := by unfold Complete; decide +kernel
theorem D2_det : Deterministic D2 := by
  intro s hs a ha
  simp only [D2, List.mem_cons, List.not_mem_nil, or_false] at hs
  rcases hs with rfl | rfl | rfl | rfl <;> simp at ha <;> subst ha
  · exact ⟨_, _, rfl⟩
  · exact ⟨_, _, rfl⟩
  · exact ⟨_, _, rfl⟩

/-- C106, C107 on it: value 3 -/
example : ∃ K, ∀ k, K ≤ k → costIn D2 4 k 1 = 3 := evaluate_exact D2_policy D2_complete D2_det (c0 := false) (fuel := 20) (r := ⟨3, true, 0, 0, false⟩) (by decide +kernel)

/-- **C109 (refuted expectation).**  `*Pcgoal` depends on the order of the states: a policy that reaches the goal with
certainty, without cycles, is reported with probability 0. -/
theorem evaluate_goal_probability_wrong : ∃ m start goal, Policy m start ∧ Complete m goal ∧ Deterministic m ∧ (∀ k, 3 ≤ k → reachIn m goal k start = 1) ∧
    ∃ r, evaluate m start goal false 20 = .ok r ∧ r.full = true ∧ r.cyc = false ∧ r.pcGoal = 0 := by
  refine ⟨D2, 1, 4, D2_policy, D2_complete, D2_det, ?_, ⟨3, true, 0, 0, false⟩, by decide +kernel, rfl, rfl, rfl⟩
  intro k hk
  obtain ⟨j, rfl⟩ : ∃ j, k = j + 3 := ⟨k - 3, by omega⟩
  have h4 : reachIn D2 4 j 4 = 1 := by cases j <;> simp [reachIn]
  have e1 : outcomes D2 1 = [(2, 1, 1)] := rfl
  have e2 : outcomes D2 2 = [(3, 1, 1)] := rfl
  have e3 : outcomes D2 3 = [(4, 1, 1)] := rfl
  simp [reachIn, e1, e2, e3, h4]

/-- the branching policy of the example for C108, in order -/
def D3 : List State := [⟨1, [⟨0, [(2, 1, 1/2), (3, 1, 1/2)]⟩], []⟩, ⟨2, [⟨0, [(4, 3, 1/4), (3, 1, 3/4)]⟩], []⟩, ⟨3, [⟨0, [(4, 5, 1)]⟩], []⟩, ⟨4, [], []⟩]
theorem D3_ordered : Ordered D3 := by
  rintro i j ⟨s, t, a, o, h1, h2, h3, h4, h5⟩
  have hi := (List.getElem?_eq_some_iff.mp h1).1
  have hj := (List.getElem?_eq_some_iff.mp h2).1
  have key : ∀ i : Fin 4, ∀ j : Fin 4, ∀ a ∈ (D3[i]).actions, ∀ o ∈ a.outs, o.1 = (D3[j]).id → i < j := by decide +kernel
  have e1 : D3[i] = s := (List.getElem?_eq_some_iff.mp h1).2
  have e2 : D3[j] = t := (List.getElem?_eq_some_iff.mp h2).2
  have := key ⟨i, hi⟩ ⟨j, hj⟩ a (by show a ∈ D3[i].actions; rw [e1]; exact h3) o h4 (by show o.1 = D3[j].id; rw [e2]; exact h5)
  exact this
example : ∀ k, 4 ≤ k → (1 : ℚ) = reachIn D3 4 k 1 :=
  evaluate_goal_probability (c0 := false) (fuel := 20) (r := ⟨49 / 8, true, 1, 1, false⟩)
    (policy_of (by decide +kernel) (by decide +kernel) (by decide +kernel) (by decide +kernel) (by decide +kernel) (by decide +kernel))
    (by unfold Complete; decide +kernel) D3_ordered (by decide +kernel) (by decide +kernel)

end Sbpl.EvProps
