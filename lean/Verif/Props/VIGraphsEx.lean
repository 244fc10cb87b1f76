import Verif.Props.VIGraphs
import Verif.Props.Nav2DPlannersEx
import Verif.Props.XYTARAEx
import Verif.Props.VIEx
/-! # C160–C162: concrete problems for the value iteration planner on graphs -/

namespace Sbpl.VIGraphProps
open MDP VI VIProps VIAnyProps GraphSpec PlannerSpec

/-- the edges as actions -/
def edgeActs (succs : Nat → List (Nat × Nat)) (s : Nat) : List Action := (succs s).map (fun e => sureAct 0 e.1 e.2)

theorem edgeActs_ok (succs : Nat → List (Nat × Nat)) : EdgeActions succs (edgeActs succs) := by
  intro s
  unfold edgeActs
  rw [List.map_map]; rfl

/-- what is compared of a run -/
def rep (o : Option Res) : Option (List Int × Bool) := o.map (fun r => (r.policy.map (fun s => s.id), decide (r.bell ≤ ERRDELTA)))

theorem rep_some {o : Option Res} {l : List Int} (h : rep o = some (l, true)) : ∃ r, o = some r ∧ r.policy.map (fun s => s.id) = l ∧ r.bell ≤ ERRDELTA := by
  cases o with
  | none => cases h
  | some r =>
    simp only [rep, Option.map_some, Option.some.injEq, Prod.mk.injEq, decide_eq_true_eq] at h
    exact ⟨r, rfl, h⟩

/-! ## A map -/
section
open Nav2DProps GridSpec

def miniV : VEnv := vEnvOf (edgeActs (miniEnv.succs 2)) (miniEnv.hGoal 2)

/-- the planner goes around the obstacle -/
example : ∃ r n, replan miniV 0 2 (fun _ => true) 30 (fresh miniV) INFINITECOST [] = some r ∧ r.policy.map (fun s => s.id) = [0, 3, 4, 5, 2] ∧
    GridWalk miniCfg.W miniCfg.H miniCfg.grid miniCfg.obs false (0, 0) (2, 0) n ∧
    ∀ n', GridWalk miniCfg.W miniCfg.H miniCfg.grid miniCfg.obs false (0, 0) (2, 0) n' → 1414 * n ≤ 1415 * n' := by
  obtain ⟨r, h1, h2, h3⟩ := rep_some (by decide +kernel : rep (replan miniV 0 2 (fun _ => true) 30 (fresh miniV) INFINITECOST []) = some ([0, 3, 4, 5, 2], true))
  obtain ⟨l, n, -, -, -, q4, q5⟩ := vi_nav2d (p := (0, 0)) (q := (2, 0)) mini_num mini_dirs rfl rfl (edgeActs_ok _) err_lt_inf h1 h3
  exact ⟨r, n, h1, h2, q4, q5⟩

/-- the actions that the environment itself creates for a state: ID, outcomes, costs -/
def miniActs (id : Nat) : Option (List (Int × List Int × List Int)) :=
  match Nav2D.init 3 2 (fun i => if i = 1 then 100 else 0) (0, 0) (2, 0) 100 8 with
  | .error _ => none
  | .ok st =>
    match st.setAll id with
    | .error _ => none
    | .ok r => some (r.2.map (fun a => (a.id, a.outs.map (fun o => o.1), a.outs.map (fun o => o.2.1))))

/-- start cell: one way out (direction 3), to a state that the call creates (ID 2); the goal is absorbing -/
example : miniActs 0 = some [(3, [2], [1000])] ∧ miniActs 1 = some [] := by decide +kernel

end

/-! ## A lattice -/
section
open XSpec XEnv XCfg XHeurProps XYTProps XYTARAProps

def xv (st : XEnv) : VEnv := vEnvOf (edgeActs ((exEnv st).succs 2)) ((exEnv st).hGoal 2)

def xvRun : Option Res := (tryX hSetup []).bind (fun st => replan (xv st) 0 2 (fun _ => true) 60 (fresh (xv st)) INFINITECOST [])

/-- the planner's policy is the optimal path -/
example : ∃ stx r ks n, XSpec.Hist hSetup [] stx ∧ replan (xv stx) 0 2 (fun _ => true) 60 (fresh (xv stx)) INFINITECOST [] = some r ∧
    r.policy.map (fun s => s.id) = [0, 6, 9, 15, 21, 3, 4, 5, 11, 17, 23, 20, 2] ∧ LPath hSetup (costs hSetup []) ks n ∧
    ∀ n', LWalk hSetup (costs hSetup []) (0, 0, 0) (2, 0, 0) n' → 3 * n ≤ 3 * n' := by
  obtain ⟨r, h1, h2, h3⟩ := rep_some (by decide +kernel : rep xvRun = some ([0, 6, 9, 15, 21, 3, 4, 5, 11, 17, 23, 20, 2], true))
  obtain ⟨stx, h0, h1⟩ := Option.bind_eq_some_iff.mp h1
  have hx := tryX_hist hSetup_ok.ok (by simp) h0
  obtain ⟨N, hE, hc, hG, hS⟩ := exEnv_ok hx
  obtain ⟨ks, n, -, -, -, q4, q5⟩ := vi_xyt (vel := 1) (m := 3) (k := 0) (p := (0, 0, 0)) (q := (2, 0, 0)) hx N (by decide) (by decide) (by norm_num) hSetup_fast hSetup_follow hc (by decide)
    (.inl ⟨1, by norm_num⟩) hG (edgeActs_ok _) err_lt_inf h1 h3
  exact ⟨stx, r, ks, n, hx, h1, h2, q4, q5⟩

end

/-! ## A graph -/
section
open Adj AdjSpec AdjProps

def adjRun (ops : List (Adj.Op Nat)) (i j : Nat) : Option Res :=
  match (Adj.empty.run ops : Except Adj.Err (Env Nat)) with
  | .error _ => none
  | .ok e =>
    replan (vEnvOf (e.setAll j) (fun s => e.heur (fun x y => if x = y then 0 else 1) s j)) i j (fun _ => true) 30
      (fresh (vEnvOf (e.setAll j) (fun s => e.heur (fun x y => if x = y then 0 else 1) s j))) INFINITECOST []

/-- from 7 over 8 and 9 to 4 -/
example : rep (adjRun (demo2 ++ [.start 7, .goal 4]) 0 3) = some ([0, 1, 2, 3], true) := by decide +kernel

end

/-! ## A heuristic that is not consistent, with uncertain outcomes -/
section
open VISpec VIExProps

/-- the problem of C120 with a heuristic twice too large -/
def env1b : VEnv := ⟨acts1, fun s => if s = 2 then 0 else if s = 0 then 8 else if s = 1 then 6 else 0⟩

theorem env1b_nonneg : ∀ s, 0 ≤ env1b.h s := by
  intro s; simp only [env1b]; split <;> [norm_num; split <;> [norm_num; split <;> norm_num]]

/-- it is not consistent: the last step from 1 is estimated too high -/
example : ¬ HConsistent env1b.acts 2 env1b.h := by
  intro h
  have := h.step 1 (by decide) ⟨2, [(2, 3, 1)]⟩ (by simp [env1b, acts1])
  norm_num [env1b, expect] at this

example : ∃ r, replan env1b 0 2 (fun _ => true) 30 (fresh env1b) INFINITECOST [] = some r ∧ r.policy.map (fun s => s.id) = [0, 2] ∧
    ∀ k : Nat, polCost r.st.best 2 k 0 ≤ 25 / 24 * r.st.v 0 ∧ k * (1 - polReach r.st.best 2 k 0) ≤ 25 / 24 * r.st.v 0 := by
  obtain ⟨r, h1, h2, h3⟩ := rep_some (by decide +kernel : rep (replan env1b 0 2 (fun _ => true) 30 (fresh env1b) INFINITECOST []) = some ([0, 2], true))
  exact ⟨r, h1, h2, VIAnyProps.converged_cost (env := env1b) proper1 unit1 (by decide) env1b_nonneg err_lt_inf h1 h3⟩

end

end Sbpl.VIGraphProps
