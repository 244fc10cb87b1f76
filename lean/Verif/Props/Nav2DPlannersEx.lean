import Verif.Props.Nav2DPlanners
import Verif.Props.LazyARAEx
/-!
# The hypotheses of C145 and C146 are met: planning around the obstacle of a 3 × 2 map
-/

namespace Sbpl.Nav2DProps
open Sbpl GraphSpec GridSpec PlannerSpec Nav2D

/-- some random successors and predecessors -/
def miniRs (_ s : Nat) : List (Nat × Nat) := if s = 2 then [] else [(5, 1000), (2, 2000)]
def miniRp (_ s : Nat) : List (Nat × Nat) := if s = 0 then [] else [(3, 1000), (0, 2000)]
def miniR : REnv := navREnv miniCfg (rowNum 3) (rowDen 3 2) 2 miniRs miniRp
def miniL : LEnv := navLEnv miniCfg (rowNum 3) (rowDen 3 2) 0 2

theorem mini_num : Numbering miniCfg.W miniCfg.H (rowNum 3) (rowDen 3 2) := row_numbering (by decide)
theorem mini_dirs : miniCfg.dirs = dirsOf false := rfl

/-- R*, forward -/
example : ∃ st st' r, (RStar.init miniR true 5 15 5 5 1000).run [.setStart 0, .setGoal 2] = some st ∧
    st.replan (fun _ => false) 60 = .ok (st', r) ∧ r.path = [3, 4, 5, 2, 2] ∧
    GridWalk miniCfg.W miniCfg.H miniCfg.grid miniCfg.obs false (0, 0) (2, 0) 4000 := by
  obtain ⟨st, st', r, h1, h2, h3, h4, h5⟩ := RStarProps.isSol_some (env := miniR) (fwd := true) (ops := [.setStart 0, .setGoal 2]) (fuel := 60)
    (p := [3, 4, 5, 2, 2]) (c := 4000) (by decide +kernel)
  have := rstar_nav2d_forward (p := (0, 0)) (q := (2, 0)) (navREnv_ok mini_num mini_dirs) (by intro e he; simp at he) h1 rfl rfl (by decide) h2 h3 mini_num
    mini_dirs (rs := miniRs) (rp := miniRp) rfl rfl rfl
  rw [h5] at this
  exact ⟨st, st', r, h1, h2, h4, this.1⟩

/-- R*, backward -/
example : ∃ st st' r, (RStar.init miniR false 5 15 5 5 1000).run [.setStart 0, .setGoal 2] = some st ∧
    st.replan (fun _ => false) 60 = .ok (st', r) ∧ r.path = [0, 3, 4, 5, 2] ∧
    GridWalk miniCfg.W miniCfg.H miniCfg.grid miniCfg.obs false (0, 0) (2, 0) 4000 := by
  obtain ⟨st, st', r, h1, h2, h3, h4, h5⟩ := RStarProps.isSol_some (env := miniR) (fwd := false) (ops := [.setStart 0, .setGoal 2]) (fuel := 60)
    (p := [0, 3, 4, 5, 2]) (c := 4000) (by decide +kernel)
  have := rstar_nav2d_backward (p := (0, 0)) (q := (2, 0)) (navREnv_ok mini_num mini_dirs) (by intro e he; simp at he) h1 rfl rfl (by decide) h2 h3 mini_num
    mini_dirs (rs := miniRs) (rp := miniRp) rfl rfl rfl
  rw [h5] at this
  exact ⟨st, st', r, h1, h2, h4, this.1⟩

/-- R*, no exception: the map is small enough -/
example {e : RErr} {st : RStar} {clk : Nat → Bool} {fuel : Nat} (h1 : (RStar.init miniR true 5 15 5 5 1000).run [.setStart 0, .setGoal 2] = some st)
    (h2 : st.replan clk fuel = .error e) : e = .heap .full ∨ e = .noTermination :=
  rstar_nav2d_no_exception (p := (0, 0)) (q := (2, 0)) (navREnv_ok mini_num mini_dirs) (by intro e he; simp at he) h1 rfl rfl (by decide) mini_num mini_dirs
    (rs := miniRs) (rp := miniRp) rfl rfl rfl (by decide) h2

/-- ANA* -/
example : ∃ st st' res, (ANA.init miniEnv true).run [.setGoal 2, .setStart 0] = some st ∧ st.replan [9, 9, 9] = .ok (st', res) ∧
    res.found = true ∧ res.path = [0, 3, 4, 5, 2] ∧ EnvOk miniEnv ∧ (∀ op ∈ [ANA.Op.setGoal 2, .setStart 0], ANASpec.OpOk op) ∧
    ANASpec.Ready true [9, 9, 9] .new [.setGoal 2, .setStart 0] ∧
    ∃ n, GridWalk miniCfg.W miniCfg.H miniCfg.grid miniCfg.obs false (0, 0) (2, 0) n := by
  obtain ⟨st, st', h1, h2⟩ := ANAProps.anaRun_some (by decide +kernel :
    ANAProps.anaRun miniEnv true [.setGoal 2, .setStart 0] [9, 9, 9] = some ⟨true, [0, 3, 4, 5, 2], 4000, (1000000000, 1), [[0, 3, 4, 5]]⟩)
  have ok : ∀ op ∈ [ANA.Op.setGoal 2, .setStart 0], ANASpec.OpOk op := by
    intro op hop; simp at hop; rcases hop with rfl | rfl <;> trivial
  have rd : ANASpec.Ready true [9, 9, 9] .new [.setGoal 2, .setStart 0] :=
    ⟨fun _ => rfl, fun _ => by decide⟩
  obtain ⟨_, _, n, _, w, _⟩ := ana_nav2d_path (p := (0, 0)) (q := (2, 0)) (nav_envOk mini_num mini_dirs) ok rd h1 rfl rfl h2 rfl mini_num mini_dirs rfl rfl rfl
  exact ⟨st, st', _, h1, h2, rfl, rfl, nav_envOk mini_num mini_dirs, ok, rd, n, w⟩

/-- the heuristics for MHA*: the one of the environment as anchor, one that is always 0 -/
def miniH (k : Nat) : Nat → Nat → Nat := if k = 0 then miniEnv.hGoal else fun _ _ => 0

/-- MHA* -/
example : ∃ st st' res, MHAProps.Called miniEnv miniH 1 1 [.setGoal 2, .setStart 0] st ⟨1, 1, 1, false, true⟩ 0 2 ∧
    st.replan ⟨1, 1, 1, false, true⟩ 9 = .ok (st', res) ∧ res.found = true ∧ res.path = [0, 3, 4, 5, 2] ∧
    ∃ n : Nat, GridWalk miniCfg.W miniCfg.H miniCfg.grid miniCfg.obs false (0, 0) (2, 0) n ∧
      (1 : Int) * ((1000 * 1 : Nat) * res.cost) ≤ 1 * ((1001 * 1 + 1 : Nat) * n) := by
  obtain ⟨st, st', h1, h2⟩ := MHAProps.planRun_some (by decide +kernel : MHAProps.planRun miniEnv miniH 1 1 [.setGoal 2, .setStart 0] ⟨1, 1, 1, false, true⟩ 9 =
    some ⟨true, [0, 3, 4, 5, 2], 4000, some 1, [(0, false), (3, false), (4, false), (5, false)], false⟩)
  have cl : MHAProps.Called miniEnv miniH 1 1 [.setGoal 2, .setStart 0] st ⟨1, 1, 1, false, true⟩ 0 2 :=
    ⟨h1, rfl, rfl, by simp, by simp, by simp, by decide, by simp⟩
  obtain ⟨_, n, _, w, _⟩ := mha_nav2d_path (p := (0, 0)) (q := (2, 0)) cl h2 rfl (by decide) mini_num mini_dirs rfl rfl rfl
  exact ⟨st, st', _, cl, h2, rfl, rfl, n, w, mha_nav2d_bound (p := (0, 0)) (q := (2, 0)) cl h2 rfl (by decide) mini_num mini_dirs rfl rfl rfl rfl w⟩

theorem navLEnv_ok {s g : Nat} : LazySpec.LEnvOk (navLEnv miniCfg (rowNum 3) (rowDen 3 2) s g) := by
  have e := nav_envOk mini_num mini_dirs
  constructor
  · intro p t n f h
    simp only [navLEnv, List.mem_map, Prod.mk.injEq] at h
    obtain ⟨⟨x, y⟩, hm, rfl, rfl, _⟩ := h
    exact e.posS g _ _ _ hm
  · intro p t n f h
    simp only [navLEnv, List.mem_map, Prod.mk.injEq] at h
    obtain ⟨⟨x, y⟩, hm, rfl, rfl, _⟩ := h
    exact e.posP g _ _ _ hm

/-- Lazy ARA* -/
example : ∃ wf st st' res, LazySpec.QueueOk stdQueue wf ∧ LazyProps.HistOk true miniL ([.setStart 0, .setGoal 2] ++ [.replan [9]]) ∧
    (LazyARA.init miniL stdQueue true 1 1 1 1 true).run [.setStart 0, .setGoal 2] = some st ∧ st.replan [9] = .ok (st', res) ∧
    res.found = true ∧ res.path = [0, 3, 4, 5, 2] ∧
    (∃ n k, GridWalk miniCfg.W miniCfg.H miniCfg.grid miniCfg.obs false (0, 0) (2, 0) n ∧ PathCost (miniEnv.succs 2) res.path k ∧
      1000 * 1 * k ≤ (1001 * 1 + 1) * n) := by
  obtain ⟨wf, q⟩ := LazyProps.stdQueue_ok
  have run : ((LazyProps.resOf (LazyProps.mkSt miniL true 1 1 1 true 0 2) [9]).map fun r => (r.found, r.path, r.passes.map fun p => p.out)) =
    some (true, [0, 3, 4, 5, 2], [false]) := by decide +kernel
  rcases hr : LazyProps.resOf (LazyProps.mkSt miniL true 1 1 1 true 0 2) [9] with _ | res
  · rw [hr] at run; cases run
  rw [hr] at run
  simp only [Option.map_some, Option.some.injEq, Prod.mk.injEq] at run
  obtain ⟨r1, r2, r3⟩ := run
  obtain ⟨st', e⟩ := LazyProps.resOf_some hr
  have hok : LazyProps.HistOk true miniL ([.setStart 0, .setGoal 2] ++ [.replan [9]]) := LazyProps.simple_hist navLEnv_ok (by decide) (by decide +kernel)
  have hcut : ∀ x ∈ res.passes, x.out = false := by
    intro x hx
    have : x.out ∈ res.passes.map fun p => p.out := List.mem_map_of_mem hx
    rw [r3] at this
    simpa using this
  obtain ⟨_, n, _, w⟩ := lazy_nav2d_path (p := (0, 0)) (q := (2, 0)) q hok (LazyProps.mkSt_run _ _ _ _ _ _ _ _) rfl e r1 mini_num mini_dirs rfl rfl rfl
  obtain ⟨b, _⟩ := lazy_nav2d_bound (p := (0, 0)) (q := (2, 0)) q hok (LazyProps.mkSt_run _ _ _ _ _ _ _ _) rfl e (by decide) hcut (by decide) rfl (by decide)
    mini_num mini_dirs rfl rfl rfl (by decide +kernel) w
  obtain ⟨k, k1, k2⟩ := b r1
  exact ⟨wf, _, st', res, q, hok, LazyProps.mkSt_run _ _ _ _ _ _ _ _, e, r1, r2, n, k, w, k1, k2⟩

end Sbpl.Nav2DProps
