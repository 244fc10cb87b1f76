import Verif.Proofs.VIRun
import Verif.Props.EvalPolicy
import Mathlib.Algebra.Order.Archimedean.Basic
/-! # C120–C127: the value iteration planner -/

set_option linter.unusedSectionVars false

namespace Sbpl
namespace VIProps
open MDP VISpec VI

variable {env : VEnv} {start goal : Int}

/-- planners after any number of calls of `replan`, with any time limits and any value left in the static variable -/
inductive Hist (env : VEnv) (start goal : Int) : St → Prop
  | new : Hist env start goal (fresh env)
  | call {p : St} {clk : Nat → Bool} {fuel : Nat} {bell : ℚ} {sol : List Int} {r : Res} : Hist env start goal p → replan env start goal clk fuel p bell sol = some r → Hist env start goal r.st

theorem replan_parts {clk : Nat → Bool} {fuel : Nat} {p : St} {bell : ℚ} {sol : List Int} {r : Res} (h : replan env start goal clk fuel p bell sol = some r) :
    ∃ p1 b1 p2 m, iterate env start goal clk fuel fuel 0 { p with iteration := 0 } bell = some (p1, b1) ∧ policyOf start goal fuel p1 = some (m, p2) ∧
      r = ⟨p2, b1, 1, sol, m, evaluate m start goal false fuel⟩ := by
  unfold replan at h
  split at h
  · cases h
  · rename_i p1 b1 h1
    split at h
    · cases h
    · rename_i m p2 h2
      cases h
      exact ⟨p1, b1, p2, m, h1, h2, rfl⟩

/-- PrintPolicy changes neither values nor best actions -/
theorem polLoop_frame : ∀ {fuel : Nat} {m : List State} {p : St} {wl : List Int} {m' : List State} {p' : St}, polLoop goal fuel m p wl = some (m', p') → p'.v = p.v ∧ p'.best = p.best
  | fuel, m, p, [], m', p', h => by
    have h : some (m, p) = some (m', p') := by rw [← h]; cases fuel <;> rfl
    cases h; exact ⟨rfl, rfl⟩
  | 0, m, p, s :: wl, m', p', h => by cases h
  | fuel + 1, m, p, s :: wl, m', p', h => by
    rw [polLoop] at h
    split at h
    · exact polLoop_frame h
    · split at h
      · exact polLoop_frame h
      · rename_i a _
        have hP := pushLoop_spec (os := a.outs) (p := p) (wl := wl)
        obtain ⟨h1, h2⟩ := polLoop_frame h
        exact ⟨h1.trans hP.v, h2.trans hP.best⟩

theorem replan_sub (hp : Proper env.acts) {clk : Nat → Bool} {fuel : Nat} {p : St} {bell : ℚ} {sol : List Int} {r : Res} (hs : Sub env goal p)
    (h : replan env start goal clk fuel p bell sol = some r) : Sub env goal r.st ∧ ∀ t, p.v t ≤ r.st.v t := by
  obtain ⟨p1, b1, p2, m, h1, h2, rfl⟩ := replan_parts h
  have hs0 : Sub env goal { p with iteration := 0 } := hs.of_eq rfl rfl
  obtain ⟨k1, k2⟩ := iterate_sub hp hs0 h1
  obtain ⟨f1, f2⟩ := polLoop_frame h2
  refine ⟨k1.of_eq f1 f2, fun t => ?_⟩
  show p.v t ≤ p2.v t
  rw [f1]; exact k2 t

theorem hist_sub (hp : Proper env.acts) (hh : HConsistent env.acts goal env.h) {p : St} (h : Hist env start goal p) : Sub env goal p := by
  induction h with
  | new => exact fresh_sub hp hh
  | call _ h ih => exact (replan_sub hp ih h).1

theorem plan_bound (hp : Proper env.acts) {p : St} (hs : Sub env goal p) : ∀ {pl : Plan} {s : Int}, pl.Legal env.acts goal s → p.v s ≤ pl.cost + pl.final p.v s
  | .stop, s, _ => by rw [Plan.cost, Plan.final, zero_add]
  | .act a next, s, h => by
    obtain ⟨h1, h2, h3⟩ := h
    rw [Plan.cost, Plan.final, ← expect_add]
    refine le_trans (hs.sub s h1 a h2) (expect_mono (hp.prob s a h2) (fun o ho => ?_))
    have := plan_bound hp hs (h3 o ho)
    linarith

theorem final_sure {w : Int → ℚ} (hw : w goal = 0) : ∀ {pl : Plan} {s : Int}, pl.Sure goal s → pl.final w s = 0
  | .stop, s, h => by rw [Plan.final, show s = goal from h, hw]
  | .act a next, s, h => by
    rw [Plan.final]
    unfold expect
    have : ∀ o ∈ a.outs, o.2.2 * (next o.1).final w o.1 = 0 := fun o ho => by rw [final_sure hw (h o ho), mul_zero]
    rw [List.map_congr_left this]
    simp

/-- **C120.**  Whatever calls were made: the value of a state is at most the expected cost of any plan from that state plus the expected value of the state where the plan ends. -/
theorem value_lower_bound (hp : Proper env.acts) (hh : HConsistent env.acts goal env.h) {p : St} (h : Hist env start goal p) {pl : Plan} {s : Int} (hl : pl.Legal env.acts goal s) :
    p.v s ≤ pl.cost + pl.final p.v s := plan_bound hp (hist_sub hp hh h) hl

/-- **C120.**  So it is at most the expected cost of every plan that surely ends at the goal. -/
theorem value_le_plan (hp : Proper env.acts) (hh : HConsistent env.acts goal env.h) {p : St} (h : Hist env start goal p) {pl : Plan} {s : Int} (hl : pl.Legal env.acts goal s) (hs : pl.Sure goal s) :
    p.v s ≤ pl.cost := by
  have h1 := value_lower_bound hp hh h hl
  rw [final_sure (hist_sub hp hh h).goal0 hs] at h1
  linarith

theorem policy_step (hp : Proper env.acts) {p : St} (hs : Sub env goal p) {S : List Int} (hS : Closed env.acts S) {M : ℚ} (hM0 : 0 ≤ M) (hM : ∀ t ∈ S, p.v t ≤ M) {π : Int → Option Action} (hπ : LegalPol env.acts π) :
    ∀ {k : Nat} {s : Int}, s ∈ S → p.v s ≤ polCost π goal k s + M * (1 - polReach π goal k s)
  | 0, s, h => by
    rw [polCost, polReach]
    by_cases hg : s = goal
    · rw [if_pos hg, hg, hs.goal0]; linarith
    · rw [if_neg hg]; have := hM s h; linarith
  | k + 1, s, h => by
    rw [polCost, polReach]
    by_cases hg : s = goal
    · rw [if_pos hg, if_pos hg, hg, hs.goal0]; linarith
    · rw [if_neg hg, if_neg hg]
      cases ha : π s with
      | none => dsimp only; have := hM s h; linarith
      | some a =>
        dsimp only
        have haa := hπ s a ha
        have h1 := hs.sub s hg a haa
        have h2 : Q p.v a ≤ expect a (fun c t => ((c : ℚ) + polCost π goal k t) + (-M * polReach π goal k t + M)) := by
          refine expect_mono (hp.prob s a haa) (fun o ho => ?_)
          have := policy_step hp hs hS hM0 hM hπ (k := k) (hS.closed s h a haa o ho)
          linarith
        rw [expect_add, expect_add_const (hp.total s a haa), expect_smul] at h2
        linarith

/-- **C120.**  If a policy reaches the goal with probability 1 from a state, and its expected cost in any number of steps is at most `V`, the value of the state is at most `V`. -/
theorem value_le_policy (hp : Proper env.acts) (hh : HConsistent env.acts goal env.h) {p : St} (h : Hist env start goal p) {S : List Int} (hS : Closed env.acts S) {s : Int} (hs : s ∈ S)
    {π : Int → Option Action} (hπ : LegalPol env.acts π) (hr : ∀ ε : ℚ, 0 < ε → ∃ k, 1 - ε ≤ polReach π goal k s) {V : ℚ} (hV : ∀ k, polCost π goal k s ≤ V) : p.v s ≤ V := by
  obtain ⟨M, hM0, hM⟩ := EvProps.exists_bound p.v S
  have hsub := hist_sub hp hh h
  by_contra hlt
  have hlt := not_le.mp hlt
  have hM1 : 0 < M + 1 := by linarith
  obtain ⟨k, hk⟩ := hr ((p.v s - V) / (M + 1)) (div_pos (by linarith) hM1)
  have h1 := policy_step hp hsub hS hM0 hM hπ (k := k) hs
  have h2 := hV k
  have h3 : M * (1 - polReach π goal k s) ≤ M * ((p.v s - V) / (M + 1)) := mul_le_mul_of_nonneg_left (by linarith) hM0
  have h4 : (M + 1) * ((p.v s - V) / (M + 1)) = p.v s - V := mul_div_cancel₀ _ (ne_of_gt hM1)
  have h5 : 0 < (p.v s - V) / (M + 1) := div_pos (by linarith) hM1
  linarith

/-- **C120.**  Values only grow: they are never below the heuristic. -/
theorem value_ge_heuristic (hp : Proper env.acts) (hh : HConsistent env.acts goal env.h) {p : St} (h : Hist env start goal p) (s : Int) : (env.h s : ℚ) ≤ p.v s := by
  induction h with
  | new => exact le_refl _
  | call h1 h2 ih => exact le_trans ih ((replan_sub hp (hist_sub hp hh h1) h2).2 s)

/-! ## The answer -/

/-- **C121 (refuted expectation).**  replan returns 1 whether a policy was found or not, and does not touch the solution vector. -/
theorem replan_answer {clk : Nat → Bool} {fuel : Nat} {p : St} {bell : ℚ} {sol : List Int} {r : Res} (h : replan env start goal clk fuel p bell sol = some r) : r.ret = 1 ∧ r.sol = sol := by
  obtain ⟨_, _, _, _, _, _, rfl⟩ := replan_parts h
  exact ⟨rfl, rfl⟩

/-- **C121.**  When the allocated time is over, replan of a new planner returns (on a finite state space). -/
theorem replan_returns (hp : Proper env.acts) (hh : HConsistent env.acts goal env.h) {S : List Int} (hS : Closed env.acts S) (hst : start ∈ S) {clk : Nat → Bool} {K : Nat} (hK : clk K = false)
    {bell : ℚ} {sol : List Int} {fuel : Nat} (hf : S.length < fuel) (hf2 : K < fuel) : ∃ r, replan env start goal clk fuel (fresh env) bell sol = some r := by
  have hs0 : Sub env goal (fresh env) := fresh_sub hp hh
  obtain ⟨⟨p1, b1⟩, h1⟩ := iterate_time hp hS.closed hst hK hf (n := fuel) (k := 0) (p := fresh env) (b := bell) hs0 (fun _ => Nat.le_refl _) (Nat.zero_le _) (by omega)
  have k1 := iterate_sub hp hs0 h1
  have k2 := iterate_spec hp hs0 (fun _ => Nat.le_refl _) h1
  obtain ⟨⟨m, p2⟩, h2⟩ := policyOf_ends (start := start) (goal := goal) k2.1 hst (fun s a hs _ hb o ho => hS.closed s hs a (k1.1.best s a hb).2 o ho) (fuel := fuel) (by omega)
  refine ⟨⟨p2, b1, 1, sol, m, evaluate m start goal false fuel⟩, ?_⟩
  unfold replan
  rw [show ({ fresh env with iteration := 0 } : St) = fresh env from rfl, h1]
  dsimp only
  rw [h2]

/-! ## The policy after convergence -/

theorem settled_meets {p : St} (h : Settled env goal start p) {s : Int} (hs : Meets p.best goal start s) :
    s = goal ∨ ∃ a ∈ env.acts s, p.best s = some a ∧ Q p.v a ≤ p.v s + 1 / 50 := by
  obtain ⟨D, h0, h1⟩ := h
  have hD : D s := by
    induction hs with
    | start => exact h0
    | step _ hg hb ho ih =>
      rcases h1 _ ih with e | ⟨a, _, k2, _, k4⟩
      · exact absurd e hg
      · rw [hb] at k2; cases k2; exact k4 _ ho
  rcases h1 s hD with e | ⟨a, k1, k2, k3, _⟩
  · exact Or.inl e
  · exact Or.inr ⟨a, k1, k2, k3⟩

theorem replan_settled (hp : Proper env.acts) (hh : HConsistent env.acts goal env.h) {clk : Nat → Bool} {fuel : Nat} {bell : ℚ} {sol : List Int} {r : Res} (hb : ERRDELTA < bell)
    (h : replan env start goal clk fuel (fresh env) bell sol = some r) (hc : r.bell ≤ ERRDELTA) : Settled env goal start r.st ∧ Sub env goal r.st := by
  have hs0 : Sub env goal (fresh env) := fresh_sub hp hh
  have hsr := (replan_sub hp hs0 h).1
  obtain ⟨p1, b1, p2, m, h1, h2, rfl⟩ := replan_parts h
  have k2 := iterate_spec hp hs0 (fun _ => Nat.le_refl _) h1
  have h3 := k2.2 (fun h => absurd h (not_le.mpr hb)) hc
  obtain ⟨f1, f2⟩ := polLoop_frame h2
  refine ⟨?_, hsr⟩
  obtain ⟨D, d0, d1⟩ := h3
  refine ⟨D, d0, fun s hs => ?_⟩
  show s = goal ∨ ∃ a ∈ env.acts s, p2.best s = some a ∧ Q p2.v a ≤ p2.v s + 1 / 50 ∧ ∀ o ∈ a.outs, D o.1
  rw [f1, f2]
  exact d1 s hs

theorem polReach_nonneg (hp : Proper env.acts) {π : Int → Option Action} (hπ : LegalPol env.acts π) : ∀ {k : Nat} {s : Int}, 0 ≤ polReach π goal k s
  | 0, s => by rw [polReach]; split <;> norm_num
  | k + 1, s => by
    rw [polReach]
    split
    · norm_num
    · split
      · norm_num
      · rename_i a ha
        exact expect_nonneg (hp.prob s a (hπ s a ha)) (fun o _ => polReach_nonneg hp hπ)

theorem steps_le_cost (hp : Proper env.acts) (hu : UnitCost env.acts) {π : Int → Option Action} (hπ : LegalPol env.acts π) : ∀ {k : Nat} {s : Int}, polSteps π goal k s ≤ polCost π goal k s
  | 0, s => le_refl _
  | k + 1, s => by
    rw [polSteps, polCost]
    split
    · norm_num
    · split
      · norm_num
      · rename_i a ha
        have haa := hπ s a ha
        have e : 1 + expect a (fun _ t => polSteps π goal k t) = expect a (fun _ t => polSteps π goal k t + 1) := by
          rw [expect_add_const (hp.total s a haa)]; ring
        rw [e]
        refine expect_mono (hp.prob s a haa) (fun o ho => ?_)
        have h1 := steps_le_cost hp hu hπ (k := k) (s := o.1)
        have h2 : (1 : ℚ) ≤ (o.2.1 : ℚ) := by exact_mod_cast hu s a haa o ho
        linarith

/-- following the best actions of a settled planner costs at most the value plus 0.02 per step -/
theorem settled_cost (hp : Proper env.acts) {p : St} (hsub : Sub env goal p) {D : Int → Prop}
    (hD : ∀ s, D s → s = goal ∨ ∃ a ∈ env.acts s, p.best s = some a ∧ Q p.v a ≤ p.v s + 1 / 50 ∧ ∀ o ∈ a.outs, D o.1) :
    ∀ {k : Nat} {s : Int}, D s → polCost p.best goal k s ≤ p.v s + 1 / 50 * polSteps p.best goal k s
  | 0, s, _ => by rw [polCost, polSteps]; have := hsub.nonneg s; linarith
  | k + 1, s, h => by
    rw [polCost, polSteps]
    rcases hD s h with hg | ⟨a, k1, k2, k3, k4⟩
    · rw [if_pos hg, if_pos hg, hg, hsub.goal0]; norm_num
    · have hg := (hsub.best s a k2).1
      rw [if_neg hg, if_neg hg, k2]
      dsimp only
      have h1 : expect a (fun c t => (c : ℚ) + polCost p.best goal k t) ≤ expect a (fun c t => ((c : ℚ) + p.v t) + 1 / 50 * polSteps p.best goal k t) :=
        expect_mono (hp.prob s a k1) (fun o ho => by have := settled_cost hp hsub hD (k := k) (k4 o ho); linarith)
      rw [expect_add (f := fun c t => (c : ℚ) + p.v t), expect_smul] at h1
      have h2 : expect a (fun c t => (c : ℚ) + p.v t) ≤ p.v s + 1 / 50 := k3
      linarith

/-- the probability that the goal has not been reached, times the number of steps allowed, is at most the expected number of steps -/
theorem reach_steps (hp : Proper env.acts) {π : Int → Option Action} (hπ : LegalPol env.acts π) {D : Int → Prop} (hD : ∀ s, D s → s = goal ∨ ∃ a, π s = some a ∧ ∀ o ∈ a.outs, D o.1) :
    ∀ {k : Nat} {s : Int}, D s → k * (1 - polReach π goal k s) ≤ polSteps π goal k s
  | 0, s, _ => by rw [polSteps]; simp
  | k + 1, s, h => by
    have hr0 := polReach_nonneg (goal := goal) hp hπ (k := k + 1) (s := s)
    rw [polReach, polSteps] at *
    by_cases hg : s = goal
    · rw [if_pos hg, if_pos hg]; simp
    · rw [if_neg hg] at hr0 ⊢
      rw [if_neg hg]
      rcases hD s h with e | ⟨a, k1, k2⟩
      · exact absurd e hg
      · rw [k1] at hr0 ⊢
        dsimp only at hr0 ⊢
        have haa := hπ s a k1
        have h1 : expect a (fun _ t => -(k : ℚ) * polReach π goal k t + k) ≤ expect a (fun _ t => polSteps π goal k t) :=
          expect_mono (hp.prob s a haa) (fun o ho => by have := reach_steps hp hπ hD (k := k) (k2 o ho); linarith)
        rw [expect_add_const (hp.total s a haa), expect_smul] at h1
        push_cast
        nlinarith

theorem best_legal {p : St} (hsub : Sub env goal p) : LegalPol env.acts p.best := fun s a h => (hsub.best s a h).2

/-- **C122.**  If a new planner stops because the values have converged, every state that can be met under its policy is the goal or has a best action, available there. -/
theorem converged_full (hp : Proper env.acts) (hh : HConsistent env.acts goal env.h) {clk : Nat → Bool} {fuel : Nat} {bell : ℚ} {sol : List Int} {r : Res} (hb : ERRDELTA < bell)
    (h : replan env start goal clk fuel (fresh env) bell sol = some r) (hc : r.bell ≤ ERRDELTA) {s : Int} (hs : Meets r.st.best goal start s) : s = goal ∨ ∃ a ∈ env.acts s, r.st.best s = some a := by
  rcases settled_meets (replan_settled hp hh hb h hc).1 hs with e | ⟨a, k1, k2, _⟩
  · exact Or.inl e
  · exact Or.inr ⟨a, k1, k2⟩

/-- bounds for all states met -/
theorem settled_bounds (hp : Proper env.acts) (hu : UnitCost env.acts) {p : St} (hset : Settled env goal start p) (hsub : Sub env goal p) {s : Int} (hs : Meets p.best goal start s) (k : Nat) :
    polCost p.best goal k s ≤ 50 / 49 * p.v s ∧ k * (1 - polReach p.best goal k s) ≤ 50 / 49 * p.v s := by
  obtain ⟨D, h0, h1⟩ := hset
  have hD : D s := by
    induction hs with
    | start => exact h0
    | step _ hg hb ho ih =>
      rcases h1 _ ih with e | ⟨a, _, k2, _, k4⟩
      · exact absurd e hg
      · rw [hb] at k2; cases k2; exact k4 _ ho
  have a1 := settled_cost hp hsub h1 (k := k) hD
  have a2 := steps_le_cost (goal := goal) hp hu (best_legal hsub) (k := k) (s := s)
  have a3 := reach_steps hp (best_legal hsub) (fun s hs => by
    rcases h1 s hs with e | ⟨a, _, k2, _, k4⟩
    · exact Or.inl e
    · exact Or.inr ⟨a, k2, k4⟩) (k := k) hD
  constructor <;> linarith

/-- **C122.**  If all costs are at least 1, the expected cost of its policy, followed for any number of steps, is at most 50/49 times the value of the start state, and the goal is reached with probability 1:
the probability of not having reached it after `k` steps is at most (50/49)·value/k. -/
theorem converged_cost (hp : Proper env.acts) (hu : UnitCost env.acts) (hh : HConsistent env.acts goal env.h) {clk : Nat → Bool} {fuel : Nat} {bell : ℚ} {sol : List Int} {r : Res} (hb : ERRDELTA < bell)
    (h : replan env start goal clk fuel (fresh env) bell sol = some r) (hc : r.bell ≤ ERRDELTA) (k : Nat) :
    polCost r.st.best goal k start ≤ 50 / 49 * r.st.v start ∧ k * (1 - polReach r.st.best goal k start) ≤ 50 / 49 * r.st.v start := by
  obtain ⟨h1, h2⟩ := replan_settled hp hh hb h hc
  exact settled_bounds hp hu h1 h2 Meets.start k

/-- **C122.**  Hence the policy costs at most 50/49 of what any policy costs that reaches the goal with probability 1. -/
theorem converged_optimal (hp : Proper env.acts) (hu : UnitCost env.acts) (hh : HConsistent env.acts goal env.h) {clk : Nat → Bool} {fuel : Nat} {bell : ℚ} {sol : List Int} {r : Res} (hb : ERRDELTA < bell)
    (h : replan env start goal clk fuel (fresh env) bell sol = some r) (hc : r.bell ≤ ERRDELTA) {S : List Int} (hS : Closed env.acts S) (hst : start ∈ S)
    {π : Int → Option Action} (hπ : LegalPol env.acts π) (hr : ∀ ε : ℚ, 0 < ε → ∃ k, 1 - ε ≤ polReach π goal k start) {V : ℚ} (hV : ∀ k, polCost π goal k start ≤ V) (k : Nat) :
    polCost r.st.best goal k start ≤ 50 / 49 * V := by
  have h1 := (converged_cost hp hu hh hb h hc k).1
  have h2 := value_le_policy hp hh (Hist.call Hist.new h) hS hst hπ hr hV
  linarith

theorem expect_eq_zero {a : Action} {f : Int → Int → ℚ} (h : ∀ o ∈ a.outs, o.2.2 * f o.2.1 o.1 = 0) : expect a f = 0 := by
  unfold expect
  rw [List.map_congr_left h]
  simp

theorem canReach_of_pos (hp : Proper env.acts) {π : Int → Option Action} (hπ : LegalPol env.acts π) : ∀ {k : Nat} {s : Int}, ¬ CanReach env.acts goal s → polReach π goal k s = 0
  | 0, s, h => by
    rw [polReach, if_neg]
    intro e; subst e; exact h CanReach.goal
  | k + 1, s, h => by
    have hg : s ≠ goal := by intro e; subst e; exact h CanReach.goal
    rw [polReach, if_neg hg]
    split
    · rfl
    · rename_i a ha
      refine expect_eq_zero (fun o ho => ?_)
      by_cases ho0 : o.2.2 = 0
      · rw [ho0, zero_mul]
      · have hpos : 0 < o.2.2 := lt_of_le_of_ne (hp.prob s a (hπ s a ha) o ho) (Ne.symm ho0)
        rw [canReach_of_pos hp hπ (fun hc => h (CanReach.step (hπ s a ha) ho hpos hc)), mul_zero]

/-- **C123 (refuted expectation).**  If the goal cannot be reached from the start state, a new planner never stops by itself: it uses up all its time (and returns 1). -/
theorem unreachable_never_converges (hp : Proper env.acts) (hu : UnitCost env.acts) (hh : HConsistent env.acts goal env.h) {clk : Nat → Bool} {fuel : Nat} {bell : ℚ} {sol : List Int} {r : Res} (hb : ERRDELTA < bell)
    (hn : ¬ CanReach env.acts goal start) (h : replan env start goal clk fuel (fresh env) bell sol = some r) : ERRDELTA < r.bell ∧ ∃ k, clk k = false := by
  have h1 : ERRDELTA < r.bell := by
    by_contra hc
    have hc := not_lt.mp hc
    obtain ⟨_, hsub⟩ := replan_settled hp hh hb h hc
    obtain ⟨k, hk⟩ := exists_nat_gt (50 / 49 * r.st.v start)
    have := (converged_cost hp hu hh hb h hc k).2
    rw [canReach_of_pos hp (best_legal hsub) hn] at this
    linarith
  refine ⟨h1, ?_⟩
  obtain ⟨p1, b1, p2, m, h2, _, rfl⟩ := replan_parts h
  by_contra hk
  have hall : ∀ k, clk k = true := fun k => by
    by_contra hh
    exact hk ⟨k, by simpa using hh⟩
  have : ∀ {n k : Nat} {p : St} {b : ℚ}, iterate env start goal clk fuel n k p b = some (p1, b1) → b1 ≤ ERRDELTA := by
    intro n
    induction n with
    | zero => intro k p b h; cases h
    | succ n ih =>
      intro k p b h
      rw [iterate] at h
      by_cases hc : clk k = true ∧ b > ERRDELTA
      · rw [if_pos hc] at h
        split at h
        · cases h
        · exact ih h
      · rw [if_neg hc] at h
        cases h
        by_contra hb
        exact hc ⟨hall k, not_le.mp hb⟩
  exact absurd h1 (not_lt.mpr (this h2))

/-! ## Convergence -/

theorem exists_plan (hp : Proper env.acts) {s : Int} (h : CanReach env.acts goal s) :
    ∃ pl : Plan, pl.Legal env.acts goal s ∧ 0 < pl.final (fun t => if t = goal then 1 else 0) s := by
  induction h with
  | goal => exact ⟨.stop, trivial, by simp [Plan.final]⟩
  | @step s a o ha ho hpos _ ih =>
    by_cases hg : s = goal
    · exact ⟨.stop, trivial, by simp [Plan.final, hg]⟩
    · obtain ⟨pl, h1, h2⟩ := ih
      refine ⟨.act a (fun t => if t = o.1 then pl else .stop), ⟨hg, ha, ?_⟩, ?_⟩
      · intro x hx
        dsimp only
        by_cases e : x.1 = o.1
        · rw [if_pos e, e]; exact h1
        · rw [if_neg e]; trivial
      · rw [Plan.final]
        unfold expect
        have hnn : ∀ (pl : Plan) (t : Int), pl.Legal env.acts goal t → 0 ≤ pl.final (fun t => if t = goal then (1 : ℚ) else 0) t := by
          intro pl
          induction pl with
          | stop => intro t _; simp only [Plan.final]; split <;> norm_num
          | act a next ih =>
            intro t ht
            rw [Plan.final]
            exact expect_nonneg (hp.prob t a ht.2.1) (fun o ho => ih o.1 o.1 (ht.2.2 o ho))
        have hz : (a.outs.map (fun _ => (0 : ℚ))).sum + o.2.2 * pl.final (fun t => if t = goal then (1 : ℚ) else 0) o.1 ≤
            (a.outs.map (fun x => x.2.2 * Plan.final (fun t => if t = goal then (1 : ℚ) else 0) (if x.1 = o.1 then pl else .stop) x.1)).sum := by
          refine sum_drop (x := o) ho (fun y hy => ?_) ?_
          · refine mul_nonneg (hp.prob s a ha y hy) ?_
            by_cases e : y.1 = o.1
            · rw [if_pos e, e]; exact hnn pl _ h1
            · rw [if_neg e]; exact hnn .stop _ trivial
          · rw [if_pos rfl, zero_add]
        have : (a.outs.map (fun _ => (0 : ℚ))).sum = 0 := by simp
        have := mul_pos hpos h2
        linarith

theorem final_le (hp : Proper env.acts) {S : List Int} (hS : Closed env.acts S) {w : Int → ℚ} {M : ℚ} (hw : ∀ t ∈ S, w t ≤ M) (hg : w goal = 0) :
    ∀ {pl : Plan} {s : Int}, s ∈ S → pl.Legal env.acts goal s → pl.final w s ≤ M * (1 - pl.final (fun t => if t = goal then 1 else 0) s)
  | .stop, s, hs, _ => by
    rw [Plan.final, Plan.final]
    by_cases e : s = goal
    · rw [if_pos e, e, hg]; linarith
    · rw [if_neg e]; have := hw s hs; linarith
  | .act a next, s, hs, hl => by
    rw [Plan.final, Plan.final]
    obtain ⟨h1, h2, h3⟩ := hl
    have h4 : expect a (fun _ t => (next t).final w t) ≤ expect a (fun _ t => -M * (next t).final (fun t => if t = goal then 1 else 0) t + M) :=
      expect_mono (hp.prob s a h2) (fun o ho => by
        have := final_le hp hS hw hg (hS.closed s hs a h2 o ho) (h3 o ho); linarith)
    rw [expect_add_const (hp.total s a h2), expect_smul] at h4
    linarith

theorem exists_max {f : Int → ℚ} : ∀ {l : List Int}, l ≠ [] → ∃ x ∈ l, ∀ y ∈ l, f y ≤ f x
  | [], h => absurd rfl h
  | [a], _ => ⟨a, by simp, by simp⟩
  | a :: b :: l, _ => by
    obtain ⟨x, h1, h2⟩ := exists_max (f := f) (l := b :: l) (by simp)
    by_cases h : f x ≤ f a
    · refine ⟨a, List.mem_cons_self, fun y hy => ?_⟩
      rcases List.mem_cons.mp hy with rfl | hy
      · exact le_refl _
      · exact le_trans (h2 y hy) h
    · refine ⟨x, List.mem_cons_of_mem _ h1, fun y hy => ?_⟩
      rcases List.mem_cons.mp hy with rfl | hy
      · exact le_of_lt (not_le.mp h)
      · exact h2 y hy

/-- if the goal can be reached from everywhere, one number bounds the values of all planners -/
theorem values_bounded (hp : Proper env.acts) {S : List Int} (hS : Closed env.acts S) (hr : ∀ s ∈ S, CanReach env.acts goal s) : ∃ B, ∀ p, Sub env goal p → ∀ s ∈ S, p.v s ≤ B := by
  have hex : ∀ l : List Int, (∀ s ∈ l, CanReach env.acts goal s) → ∃ K q : ℚ, 0 ≤ K ∧ 0 < q ∧ ∀ s ∈ l, ∃ pl : Plan, pl.Legal env.acts goal s ∧ pl.cost ≤ K ∧ q ≤ pl.final (fun t => if t = goal then 1 else 0) s := by
    intro l
    induction l with
    | nil => intro _; exact ⟨0, 1, le_refl _, by norm_num, by simp⟩
    | cons x l ih =>
      intro h
      obtain ⟨K, q, h1, h2, h3⟩ := ih (fun s hs => h s (List.mem_cons_of_mem _ hs))
      obtain ⟨pl, k1, k2⟩ := exists_plan hp (h x List.mem_cons_self)
      refine ⟨max K pl.cost, min q (pl.final (fun t => if t = goal then 1 else 0) x), le_trans h1 (le_max_left _ _), lt_min h2 k2, ?_⟩
      intro s hs
      rcases List.mem_cons.mp hs with rfl | hs
      · exact ⟨pl, k1, le_max_right _ _, min_le_right _ _⟩
      · obtain ⟨pl', a, b, c⟩ := h3 s hs
        exact ⟨pl', a, le_trans b (le_max_left _ _), le_trans (min_le_left _ _) c⟩
  obtain ⟨K, q, h1, h2, h3⟩ := hex S hr
  refine ⟨K / q, fun p hs => ?_⟩
  intro s hsS
  obtain ⟨x, hx, hmax⟩ := exists_max (f := p.v) (l := S) (by intro e; rw [e] at hsS; exact absurd hsS (by simp))
  refine le_trans (hmax s hsS) ?_
  obtain ⟨pl, k1, k2, k3⟩ := h3 x hx
  have e1 := plan_bound hp hs k1
  have e2 := final_le hp hS hmax hs.goal0 hx k1
  rw [le_div_iff₀ h2]
  have e3 := hs.nonneg x
  nlinarith

/-- **C124.**  If the goal can be reached from every state of a finite state space, a new planner with enough time stops because the values have converged. -/
theorem replan_converges (hp : Proper env.acts) (hh : HConsistent env.acts goal env.h) {S : List Int} (hS : Closed env.acts S) (hst : start ∈ S) (hr : ∀ s ∈ S, CanReach env.acts goal s)
    (bell : ℚ) (sol : List Int) : ∃ N, ∀ (clk : Nat → Bool) (fuel : Nat), N ≤ fuel → ∃ r, replan env start goal clk fuel (fresh env) bell sol = some r ∧ ((∀ k, clk k = true) → r.bell ≤ ERRDELTA) := by
  obtain ⟨B, hB⟩ := values_bounded hp hS hr
  obtain ⟨N, hN⟩ := exists_nat_gt (Phi S B (fresh env) + 1)
  have hs0 : Sub env goal (fresh env) := fresh_sub hp hh
  have hd : ∀ s ∈ S, env.acts s ≠ [] ∨ s = goal := by
    intro s hs
    cases hr s hs with
    | goal => exact Or.inr rfl
    | step ha _ _ _ => left; intro e; rw [e] at ha; exact absurd ha (by simp)
  refine ⟨N + S.length + 1, fun clk fuel hf => ?_⟩
  have hNf : (N : ℚ) ≤ fuel := by exact_mod_cast (by omega : N ≤ fuel)
  obtain ⟨p1, b1, h1, h3⟩ := iterate_conv hp hS.closed hst hd hB (clk := clk) (fuel := fuel) (by omega) (n := fuel) (k := 0) (p := fresh env) (b := bell) hs0 (fun _ => Nat.le_refl _) (fun _ => by linarith) (by omega)
  have k1 := iterate_sub hp hs0 h1
  have k2 := iterate_spec hp hs0 (fun _ => Nat.le_refl _) h1
  obtain ⟨⟨m, p2⟩, h2⟩ := policyOf_ends (start := start) (goal := goal) k2.1 hst (fun s a hs _ hb o ho => hS.closed s hs a (k1.1.best s a hb).2 o ho) (fuel := fuel) (by omega)
  refine ⟨⟨p2, b1, 1, sol, m, evaluate m start goal false fuel⟩, ?_, h3⟩
  unfold replan
  rw [show ({ fresh env with iteration := 0 } : St) = fresh env from rfl, h1]
  dsimp only
  rw [h2]

/-! ## Policy and evaluation -/

section
open EvSpec MDPSpec

/-- the policy is a Markov chain, and following it is the same as following the best actions -/
theorem policy_ok (hp : Proper env.acts) {p p' : St} {m : List State} {fuel : Nat} (hsub : Sub env goal p) (hm : ∀ t, p.iter t ≤ p.iteration) (h : policyOf start goal fuel p = some (m, p')) :
    Policy m start ∧ ∀ s ∈ m, (outcomes m s.id = [] ∧ (s.id = goal ∨ p.best s.id = none)) ∨ ∃ a, s.id ≠ goal ∧ p.best s.id = some a ∧ outcomes m s.id = a.outs := by
  obtain ⟨h1, h2, h3, h4, h5⟩ := policyOf_spec hm h
  have hch : Chain m := by
    refine ⟨?_, ?_, ?_⟩
    · have := h1
      rw [List.Nodup, List.pairwise_map] at this
      exact this
    · intro s hs
      rcases h5 s hs with ⟨e, _⟩ | ⟨a, _, e, _⟩ <;> rw [e] <;> simp
    · intro s hs a ha o ho
      have hme := (h2 s.id).mp (List.mem_map.mpr ⟨s, hs, rfl⟩)
      rcases h5 s hs with ⟨e, _⟩ | ⟨b, hg, e, e'⟩
      · rw [e] at ha; exact absurd ha (by simp)
      · rw [e, List.mem_singleton] at ha
        subst ha
        exact List.mem_map.mp ((h2 o.1).mpr (Meets.step hme hg e' ho))
  have hact : ∀ s ∈ m, ∀ a ∈ s.actions, a ∈ env.acts s.id := by
    intro s hs a ha
    rcases h5 s hs with ⟨e, _⟩ | ⟨b, hg, e, e'⟩
    · rw [e] at ha; exact absurd ha (by simp)
    · rw [e, List.mem_singleton] at ha
      subst ha
      exact (hsub.best _ _ e').2
  refine ⟨⟨hch, List.mem_map.mp ((h2 start).mpr Meets.start), ?_, ?_, ?_⟩, ?_⟩
  · intro s hs a ha; exact hp.cost _ a (hact s hs a ha)
  · intro s hs a ha; exact hp.prob _ a (hact s hs a ha)
  · intro s hs a ha; exact hp.total _ a (hact s hs a ha)
  · intro s hs
    rw [EvPr.outcomes_of hch hs]
    rcases h5 s hs with ⟨e, e'⟩ | ⟨b, hg, e, e'⟩
    · left; exact ⟨by simp [State.outs, e], e'⟩
    · right; exact ⟨b, hg, e', by simp [State.outs, e]⟩

theorem policy_same (hp : Proper env.acts) {p p' : St} {m : List State} {fuel : Nat} (hsub : Sub env goal p) (hm : ∀ t, p.iter t ≤ p.iteration) (h : policyOf start goal fuel p = some (m, p')) :
    ∀ {k : Nat} {s : State}, s ∈ m → costIn m goal k s.id = polCost p.best goal k s.id ∧ reachIn m goal k s.id = polReach p.best goal k s.id
  | 0, s, hs => ⟨rfl, rfl⟩
  | k + 1, s, hs => by
    obtain ⟨q1, q2⟩ := policy_ok hp hsub hm h
    rw [costIn, polCost, reachIn, polReach]
    by_cases hg : s.id = goal
    · rw [if_pos hg, if_pos hg, if_pos hg, if_pos hg]; exact ⟨rfl, rfl⟩
    · rw [if_neg hg, if_neg hg, if_neg hg, if_neg hg]
      rcases q2 s hs with ⟨e, e' | e'⟩ | ⟨a, _, e, e'⟩
      · exact absurd e' hg
      · rw [e, e']; exact ⟨rfl, rfl⟩
      · rw [e, e']
        dsimp only
        have hall : ∀ o ∈ a.outs, ∃ t ∈ m, t.id = o.1 := by
          intro o ho
          rw [EvPr.outcomes_of q1.chain hs] at e'
          obtain ⟨t, t1, t2⟩ := EvPr.out_pos q1.chain hs (o := o) (by rw [e']; exact ho)
          exact ⟨_, List.mem_of_getElem? t1, t2⟩
        unfold expect
        constructor
        · refine congrArg List.sum (List.map_congr_left (fun o ho => ?_))
          obtain ⟨t, t1, t2⟩ := hall o ho
          rw [← t2, (policy_same hp hsub hm h (k := k) t1).1]
        · refine congrArg List.sum (List.map_congr_left (fun o ho => ?_))
          obtain ⟨t, t1, t2⟩ := hall o ho
          rw [← t2, (policy_same hp hsub hm h (k := k) t1).2]

/-- **C125.**  The policy handed to EvaluatePolicy consists of the states that can be met under the best actions, each once, with its best action; following it costs the same. -/
theorem policy_built (hp : Proper env.acts) (hh : HConsistent env.acts goal env.h) {clk : Nat → Bool} {fuel : Nat} {bell : ℚ} {sol : List Int} {r : Res}
    (h : replan env start goal clk fuel (fresh env) bell sol = some r) :
    Policy r.policy start ∧ (∀ t, (∃ s ∈ r.policy, s.id = t) ↔ Meets r.st.best goal start t) ∧
    (∀ s ∈ r.policy, s.id ≠ goal → s.actions = (r.st.best s.id).toList) ∧ ∀ k, costIn r.policy goal k start = polCost r.st.best goal k start := by
  have hs0 : Sub env goal (fresh env) := fresh_sub hp hh
  obtain ⟨p1, b1, p2, m, h1, h2, rfl⟩ := replan_parts h
  have k1 := iterate_sub hp hs0 h1
  have k2 := iterate_spec hp hs0 (fun _ => Nat.le_refl _) h1
  obtain ⟨f1, f2⟩ := polLoop_frame h2
  obtain ⟨j1, j2, j3, j4, j5⟩ := policyOf_spec k2.1 h2
  obtain ⟨q1, q2⟩ := policy_ok hp k1.1 k2.1 h2
  dsimp only
  refine ⟨q1, ?_, ?_, ?_⟩
  · intro t
    rw [j4, ← j2 t, List.mem_map]
  · intro s hs hg
    rw [j4]
    rcases j5 s hs with ⟨e, e' | e'⟩ | ⟨a, _, e, e'⟩
    · exact absurd e' hg
    · rw [e, e']; rfl
    · rw [e, e']; rfl
  · intro k
    obtain ⟨s, hs, e⟩ := q1.start
    rw [← e, (policy_same hp k1.1 k2.1 h2 (k := k) hs).1, j4]

/-- **C125.**  After convergence (costs at least 1) the evaluation of the policy, with a large enough iteration budget, returns: it reports a full policy whose value is at most 50/49 of the value of the start state. -/
theorem policy_evaluated (hp : Proper env.acts) (hu : UnitCost env.acts) (hh : HConsistent env.acts goal env.h) {clk : Nat → Bool} {fuel : Nat} {bell : ℚ} {sol : List Int} {r : Res} (hb : ERRDELTA < bell)
    (h : replan env start goal clk fuel (fresh env) bell sol = some r) (hc : r.bell ≤ ERRDELTA) :
    ∃ N, ∀ fuel', N ≤ fuel' → ∃ e, evaluate r.policy start goal false fuel' = .ok e ∧ e.full = true ∧ e.value ≤ 50 / 49 * r.st.v start := by
  obtain ⟨hset, hsub⟩ := replan_settled hp hh hb h hc
  obtain ⟨hpol, hids, hacts, hcost⟩ := policy_built hp hh h
  have hcompl : Complete r.policy goal := by
    intro s hs hg
    rw [hacts s hs hg]
    rcases settled_meets hset ((hids s.id).mp ⟨s, hs, rfl⟩) with e | ⟨a, _, e, _⟩
    · exact absurd e hg
    · rw [e]; simp
  have hreach : ∀ s ∈ r.policy, ∃ k, 0 < reachIn r.policy goal k s.id := by
    intro s hs
    obtain ⟨k, hk⟩ := exists_nat_gt (50 / 49 * r.st.v s.id)
    have hme := (hids s.id).mp ⟨s, hs, rfl⟩
    have h1 := (settled_bounds hp hu hset hsub hme k).2
    refine ⟨k, ?_⟩
    have hs0 : Sub env goal (fresh env) := fresh_sub hp hh
    obtain ⟨p1, b1, p2, m, h3, h2, rfl⟩ := replan_parts h
    have k1 := iterate_sub hp hs0 h3
    have k2 := iterate_spec hp hs0 (fun _ => Nat.le_refl _) h3
    obtain ⟨f1, f2⟩ := polLoop_frame h2
    rw [(policy_same hp k1.1 k2.1 h2 (k := k) hs).2]
    dsimp only at h1 hk
    rw [show p2.best = p1.best from f2] at h1
    by_contra hneg
    have hneg := not_lt.mp hneg
    have hk0 : (0 : ℚ) ≤ k := Nat.cast_nonneg k
    nlinarith
  obtain ⟨N, hN⟩ := EvProps.evaluate_returns (c0 := false) hpol hcompl hreach
  refine ⟨N, fun f hf => ?_⟩
  obtain ⟨e, he⟩ := hN f hf
  refine ⟨e, he, (EvProps.evaluate_full_iff hpol he).mpr hcompl, ?_⟩
  obtain ⟨K, hK⟩ := (EvProps.evaluate_value hpol hcompl he).1
  rw [hcost K] at hK
  exact le_trans hK (converged_cost hp hu hh hb h hc K).1

end

/-! ## The static variable -/

/-- **C126 (refuted expectation).**  `g_belldelta` is shared by all planners of the process and never reset: after any planner has converged, replan of another planner (for any other problem) makes no pass at all
and returns 1 with the policy that does nothing. -/
theorem second_planner_idle {clk : Nat → Bool} {fuel : Nat} {bell : ℚ} {sol : List Int} (hb : bell ≤ ERRDELTA) (hf : 0 < fuel) :
    ∃ r, replan env start goal clk fuel (fresh env) bell sol = some r ∧ r.ret = 1 ∧ r.bell = bell ∧ r.policy = [⟨start, [], []⟩] ∧ (∀ s, r.st.v s = env.h s) ∧ ∀ s, r.st.best s = none := by
  obtain ⟨f, rfl⟩ : ∃ f, fuel = f + 1 := ⟨fuel - 1, by omega⟩
  unfold replan
  rw [iterate, if_neg (fun h => absurd h.2 (not_lt.mpr hb))]
  dsimp only
  unfold policyOf
  rw [polLoop]
  have e : (({ fresh env with iteration := 0 } : St)).best start = none := rfl
  by_cases hg : start = goal
  · rw [if_pos hg]
    cases f <;> exact ⟨_, rfl, rfl, rfl, rfl, fun _ => rfl, fun _ => rfl⟩
  · rw [if_neg hg]
    cases f <;> exact ⟨_, rfl, rfl, rfl, rfl, fun _ => rfl, fun _ => rfl⟩

end VIProps
end Sbpl
