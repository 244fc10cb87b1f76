import Verif.Props.Agree
import Verif.Props.ADEx
import Verif.Props.ANAEx
import Verif.Props.LazyARAEx
/-! # C173, C174: all planners on one graph -/

namespace Sbpl.AgreeProps
open GraphSpec PlannerSpec ADProps

/-- the graph of the examples: the environment `jamEdges` with goal 5 -/
def jam : Nat → List (Nat × Nat) := (tab jamEdges).succs 5

theorem ad_reports : Reports jam 0 5 5 := by
  obtain ⟨st, st', h1, h2⟩ := adRun_some jamRun_eq
  exact .ad 1 2 (some 5) (tab roadEdges) true 1 2 1 1 false jamOps st st' [100, 100, 100] _ 1 (road_ad true) (by unfold EpsOk; omega)
    (hist_road (jam_plain true)) h1 rfl rfl (by simp) (by simp) h2 (tab_preds _ _) rfl (by omega) rfl (by simp) rfl

theorem ad_back_reports : Reports jam 0 5 5 := by
  obtain ⟨st, st', h1, h2⟩ := adRun_some jamRunB_eq
  exact .ad 1 2 (some 5) (tab roadEdges) false 1 2 1 1 false jamOps st st' [100, 100, 100] _ 1 (road_ad false) (by unfold EpsOk; omega)
    (hist_road (jam_plain false)) h1 rfl rfl (by simp) (fun _ => tab_dual _ _) h2 (tab_preds _ _) rfl (by omega) rfl (by simp) rfl

theorem araRun_eq : ARAProps.planRun (tab jamEdges) false 1 2 1 1 false [.setGoal 5, .setStart 0] [100, 100, 100] =
    some ⟨true, [0, 2, 3, 5], 5, some 1, [[5, 3, 1, 2], []]⟩ := by decide +kernel

theorem jam_ok : EnvOk (tab jamEdges) := (jam_ad true).ok

theorem ara_reports : Reports jam 0 5 5 := by
  obtain ⟨st, st', h1, h2⟩ := ARAProps.planRun_some araRun_eq
  refine .ara (tab jamEdges) false 1 2 1 1 false [.setGoal 5, .setStart 0] st st' [100, 100, 100] _ 1 jam_ok ?_ h1 rfl rfl (by simp) h2
    (jam_ad false).heur (fun _ => tab_preds _ _) rfl (by omega) rfl rfl
  intro op h
  simp only [List.mem_cons, List.not_mem_nil, or_false] at h
  rcases h with rfl | rfl <;> trivial

theorem anaRun_eq : (ANAProps.anaRun (tab jamEdges) true [.setGoal 5, .setStart 0] [100, 100, 100]).map
    (fun r => (r.found, r.path, r.cost, r.eps)) = some (true, [0, 2, 3, 5], 5, (1, 1)) := by decide +kernel

theorem ana_reports : Reports jam 0 5 5 := by
  have h := anaRun_eq
  cases e : ANAProps.anaRun (tab jamEdges) true [.setGoal 5, .setStart 0] [100, 100, 100] with
  | none => rw [e] at h; cases h
  | some r =>
    rw [e] at h
    simp only [Option.map_some, Option.some.injEq, Prod.mk.injEq] at h
    obtain ⟨q1, q2, q3, q4⟩ := h
    obtain ⟨st, st', h1, h2⟩ := ANAProps.anaRun_some e
    suffices this : Reports jam 0 5 r.cost by rw [q3] at this; exact this
    refine .ana (tab jamEdges) true [.setGoal 5, .setStart 0] st st' [100, 100, 100] r jam_ok ?_ ?_ h1 rfl rfl h2
      (ANAProps.admOk_of_heurOk (jam_ad true).heur) (by simp) (by rw [q4]) q1 rfl
    · intro op h
      simp only [List.mem_cons, List.not_mem_nil, or_false] at h
      rcases h with rfl | rfl <;> trivial
    · exact ⟨fun _ => rfl, fun _ => by simp⟩

/-- an additional heuristic that is far from admissible -/
def wildH (i _ s : Nat) : Nat := if i = 0 then 0 else 7 * s

theorem mhaRun_eq : (MHAProps.planRun (tab jamEdges) wildH 1 1 [.setMhaEps 1, .setGoal 5, .setStart 0] ⟨1, 1, 1, false, true⟩ 50).map
    (fun r => (r.found, r.path, r.cost)) = some (true, [0, 2, 3, 5], 5) := by decide +kernel

theorem mha_reports : Reports jam 0 5 5 := by
  have h := mhaRun_eq
  cases e : MHAProps.planRun (tab jamEdges) wildH 1 1 [.setMhaEps 1, .setGoal 5, .setStart 0] ⟨1, 1, 1, false, true⟩ 50 with
  | none => rw [e] at h; cases h
  | some r =>
    rw [e] at h
    simp only [Option.map_some, Option.some.injEq, Prod.mk.injEq] at h
    obtain ⟨q1, q2, q3⟩ := h
    obtain ⟨st, st', h1, h2⟩ := MHAProps.planRun_some e
    exact .mha (tab jamEdges) wildH 1 1 [.setMhaEps 1, .setGoal 5, .setStart 0] st st' ⟨1, 1, 1, false, true⟩ 50 r 5
      ⟨h1, rfl, rfl, by simp, by simp, by simp, by decide, by simp⟩ h2 (by omega) (by simp) (by decide)
      ⟨rfl, fun _ _ _ _ => Nat.zero_le _⟩ q1 (by rw [q2]; exact .inl (by simp)) q3 rfl

/-- the graph of the Lazy ARA* example as a list of edges -/
def lazyG (s : Nat) : List (Nat × Nat) := (LazyProps.envT.succs s).map (fun e => (e.1, e.2.1))

theorem envT_true : ∀ p s c f, (s, c, f) ∈ LazyProps.envT.succs p → f = true := by
  intro p s c f hm
  obtain ⟨t, ht⟩ := LazyProps.tab_succs.mp hm
  exact (List.mem_filter.mp ht).2

/-- the hypotheses of C173 for Lazy ARA* -/
theorem lazy_reports : Reports lazyG 0 7 8 := by
  obtain ⟨wf, q⟩ := LazyProps.stdQueue_ok
  obtain ⟨st', e⟩ := LazyProps.resOf_some LazyProps.runT'
  refine .lazy wf stdQueue LazyProps.envT 1 3 1 1 false [.setStart 0, .setGoal 7] _ st' [100, 100, 100] _ 1 q
    (LazyProps.simple_hist (LazyProps.tab_ok (by decide)) (by decide) rfl) (LazyProps.mkSt_run _ _ _ _ _ _ _ _) rfl e rfl envT_true ?_ rfl
    (by omega) (by omega) (LazyProps.tab_consistent rfl (by decide +kernel)) (by decide) (by decide) (by decide)
  intro s t c
  unfold lazyG
  rw [List.mem_map]
  constructor
  · rintro (h | ⟨lc, h, _⟩)
    · exact ⟨_, h, rfl⟩
    · exact absurd (envT_true _ _ _ _ h) (by simp)
  · rintro ⟨⟨t', c', f⟩, h, e⟩
    have := envT_true _ _ _ _ h
    subst this
    cases e
    exact .inl h

/-- The hypotheses of C173 are met by an incremental forward AD* search, a backward one, a backward ARA* search, ANA*
and MHA* with an inadmissible additional heuristic; so the least cost is 5. -/
example : Least jam 0 5 5 ∧ Reports jam 0 5 5 := ⟨reports_least ad_reports, mha_reports⟩

theorem scratchRun_eq : adRun (tab jamEdges) true 1 2 1 1 false [.setGoal 5, .setStart 0] [100, 100, 100] =
    some ⟨true, [0, 2, 3, 5], 5, some 1, [[0, 2, 3], []]⟩ := by decide +kernel

/-- the hypotheses of C174 on the planner constructed anew -/
example : ∃ st st' res, ADSpec.HistOk True 1 (some 5) 2 (AD.init (tab jamEdges) true 1 2 1 1 false) [.setGoal 5, .setStart 0] ∧
    AD.run (AD.init (tab jamEdges) true 1 2 1 1 false) [.setGoal 5, .setStart 0] = some st ∧
    AD.replan st [100, 100, 100] = .ok (st', res) ∧ res.finalEps = some 1 ∧ res.found = true ∧ res.path ≠ [] := by
  obtain ⟨st, st', h1, h2⟩ := adRun_some scratchRun_eq
  refine ⟨st, st', _, ?_, h1, h2, rfl, rfl, by simp⟩
  exact histOk_of_plain _ (AD.init_api (jam_ad true) (by omega) (by omega) (by omega)) ⟨fun _ => .inr rfl, trivial⟩

theorem wallFail_eq : ARAProps.planRun (tab wallEdges) false 1 1 1 1 false [.setGoal 5, .setStart 0] [100, 100, 100] =
    some ⟨false, [], 1000000000, none, [[5]]⟩ := by decide +kernel

theorem wall_ok : EnvOk (tab wallEdges) := (tab_ad (m := 1) (fwd := true) (ab := some 5) (by decide) (by decide) (by simp)).ok

/-- the hypotheses of the statement on failures -/
example : Fails ((tab wallEdges).succs 5) 0 5 1 := by
  obtain ⟨st, st', h1, h2⟩ := ARAProps.planRun_some wallFail_eq
  refine .ara (tab wallEdges) false 1 1 1 1 false [.setGoal 5, .setStart 0] st st' [100, 100, 100] _ wall_ok ?_ h1 rfl rfl (by simp) h2
    (tab_ad (m := 1) (fwd := false) (ab := some 5) (by decide) (by decide) (by simp)).heur (fun _ => tab_preds _ _) (by omega) ?_ (by omega)
    (by omega) ⟨1, by decide, by decide⟩ rfl rfl
  · intro op h
    simp only [List.mem_cons, List.not_mem_nil, or_false] at h
    rcases h with rfl | rfl <;> trivial
  · intro op h a b c d e
    simp only [List.mem_cons, List.not_mem_nil, or_false] at h
    rcases h with rfl | rfl <;> cases e

end Sbpl.AgreeProps
