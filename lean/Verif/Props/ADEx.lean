import Verif.Props.AD
/-!
# AD*: concrete runs that meet the hypotheses, and what happens outside them (C64–C72)
-/

namespace Sbpl.ADProps
open Sbpl GraphSpec PlannerSpec ADSpec ARA

def zeroH : Nat → Nat → Nat := fun _ _ => 0

/-- environment given by a table of edges (from, to, cost), absorbing goal, heuristic zero -/
def tab (es : List (Nat × Nat × Nat)) : PEnv := ARAProps.tableEnv es zeroH zeroH

theorem tab_ad {es : List (Nat × Nat × Nat)} {m : Nat} {fwd : Bool} {ab : Option Nat} (pos : ∀ e ∈ es, 1 ≤ e.2.2)
    (lo : ∀ e ∈ es, m ≤ e.2.2) (hab : ab ≠ none) : EnvAD (tab es) fwd m ab := by
  refine ⟨ARAProps.tableEnv_ok _ _ _ pos, ?_, ⟨?_, ?_⟩, fun _ _ _ _ => rfl, fun _ h => absurd h hab, ?_⟩
  · unfold HeurOk
    split
    · exact fun gl => ⟨rfl, fun _ _ _ _ => Nat.zero_le _⟩
    · exact fun gl s => ⟨rfl, fun _ _ _ _ => Nat.zero_le _⟩
  · intro gl s t c h
    simp only [tab, ARAProps.tableEnv] at h
    split at h
    · cases h
    · exact lo _ (ARAProps.mem_tableSucc.mp h)
  · intro gl s t c h; exact lo _ (ARAProps.mem_tablePred.mp h)
  · intro _ gl t ne
    refine .inr ?_
    intro u c h
    simp only [tab, ARAProps.tableEnv] at h
    split at h
    · cases h
    · exact ARAProps.mem_tablePred.mpr (ARAProps.mem_tableSucc.mp h)

theorem tab_dual {es : List (Nat × Nat × Nat)} (b a : Nat) : DualAt (tab es) b a := by
  intro u c h
  simp only [tab, ARAProps.tableEnv] at h
  split at h
  · cases h
  · exact ARAProps.mem_tablePred.mpr (ARAProps.mem_tableSucc.mp h)

/-- forward search: the edges into states outside `l` are the same in both tables -/
theorem tab_covers_fwd {es es' : List (Nat × Nat × Nat)} {l : List Nat} (h1 : ∀ e ∈ es, e.2.1 ∈ l ∨ e ∈ es')
    (h2 : ∀ e ∈ es', e.2.1 ∈ l ∨ e ∈ es) : Covers (tab es) (tab es') true l (fun _ => True) := by
  intro gl t ht _
  have key : ∀ u c, (u, t, c) ∈ es ↔ (u, t, c) ∈ es' := fun u c =>
    ⟨fun h => (h1 _ h).resolve_left ht, fun h => (h2 _ h).resolve_left ht⟩
  constructor
  · intro u c
    simp only [searchGraph, tab, ARAProps.tableEnv, if_pos, if_neg (Nat.ne_of_lt (Nat.lt_succ_self u))]
    rw [ARAProps.mem_tableSucc, ARAProps.mem_tableSucc]; exact key u c
  · intro u c
    show (u, c) ∈ (tab es).preds gl t ↔ (u, c) ∈ (tab es').preds gl t
    simp only [tab, ARAProps.tableEnv]
    rw [ARAProps.mem_tablePred, ARAProps.mem_tablePred]; exact key u c

/-- backward search: the edges out of states outside `l` are the same in both tables -/
theorem tab_covers_bwd {es es' : List (Nat × Nat × Nat)} {l : List Nat} (h1 : ∀ e ∈ es, e.1 ∈ l ∨ e ∈ es')
    (h2 : ∀ e ∈ es', e.1 ∈ l ∨ e ∈ es) : Covers (tab es) (tab es') false l (fun _ => True) := by
  intro gl t ht _
  have key : ∀ u c, (t, u, c) ∈ es ↔ (t, u, c) ∈ es' := fun u c =>
    ⟨fun h => (h1 _ h).resolve_left ht, fun h => (h2 _ h).resolve_left ht⟩
  constructor
  · intro u c
    show (t, c) ∈ (tab es).preds gl u ↔ (t, c) ∈ (tab es').preds gl u
    simp only [tab, ARAProps.tableEnv]
    rw [ARAProps.mem_tablePred, ARAProps.mem_tablePred]; exact key u c
  · intro u c
    show (u, c) ∈ (tab es).succs gl t ↔ (u, c) ∈ (tab es').succs gl t
    simp only [tab, ARAProps.tableEnv]
    by_cases q : t = gl
    · rw [if_pos q, if_pos q]
    · rw [if_neg q, if_neg q, ARAProps.mem_tableSucc, ARAProps.mem_tableSucc]; exact key u c

theorem tab_noNew {es es' : List (Nat × Nat × Nat)} {fwd : Bool}
    (h : ∀ e ∈ es', ∃ e' ∈ es, e'.1 = e.1 ∧ e'.2.1 = e.2.1) : NoNewEdges (tab es) (tab es') fwd (fun _ => False) := by
  intro gl u t c hm
  left
  cases fwd with
  | true =>
    simp only [searchGraph, tab, ARAProps.tableEnv, if_pos, if_neg (Nat.ne_of_lt (Nat.lt_succ_self u))] at hm ⊢
    rw [ARAProps.mem_tableSucc] at hm
    obtain ⟨⟨x, y, z⟩, he, rfl, rfl⟩ := h _ hm
    exact ⟨z, ARAProps.mem_tableSucc.mpr he⟩
  | false =>
    change (t, c) ∈ (tab es').preds gl u at hm
    simp only [tab, ARAProps.tableEnv] at hm
    rw [ARAProps.mem_tablePred] at hm
    obtain ⟨⟨x, y, z⟩, he, rfl, rfl⟩ := h _ hm
    exact ⟨z, by simpa [searchGraph, tab, ARAProps.tableEnv] using (ARAProps.mem_tablePred.mpr he)⟩

theorem tab_sameHeur {es es' : List (Nat × Nat × Nat)} {fwd : Bool} : SameHeur (tab es) (tab es') fwd := by
  unfold SameHeur; split <;> rfl

theorem tab_preds (es : List (Nat × Nat × Nat)) (a : Nat) : PredsOk (tab es) a := ARAProps.tableEnv_preds _ _ _ a

/-- construct, make the calls `ops`, call `replan` -/
def adRun (env : PEnv) (fwd : Bool) (D ie fe de : Nat) (fs : Bool) (ops : List AD.Op) (bs : List Nat) : Option Result :=
  match AD.run (AD.init env fwd D ie fe de fs) ops with
  | none => none
  | some st => match AD.replan st bs with
    | .ok (_, r) => some r
    | .error _ => none

theorem adRun_some {env : PEnv} {fwd : Bool} {D ie fe de : Nat} {fs : Bool} {ops : List AD.Op} {bs : List Nat} {r : Result}
    (h : adRun env fwd D ie fe de fs ops bs = some r) :
    ∃ st st', AD.run (AD.init env fwd D ie fe de fs) ops = some st ∧ AD.replan st bs = .ok (st', r) := by
  unfold adRun at h
  split at h
  · cases h
  · rename_i st h1
    split at h
    · rename_i st' r' h2
      cases h
      exact ⟨st, st', h1, h2⟩
    · cases h

/-- outcome of a run that ends with an exception -/
def adErr (env : PEnv) (fwd : Bool) (D ie fe de : Nat) (fs : Bool) (ops : List AD.Op) (bs : List Nat) : Option PErr :=
  match AD.run (AD.init env fwd D ie fe de fs) ops with
  | none => none
  | some st => match AD.replan st bs with
    | .ok _ => none
    | .error x => some x

theorem adErr_some {env : PEnv} {fwd : Bool} {D ie fe de : Nat} {fs : Bool} {ops : List AD.Op} {bs : List Nat} {x : PErr}
    (h : adErr env fwd D ie fe de fs ops bs = some x) :
    ∃ st, AD.run (AD.init env fwd D ie fe de fs) ops = some st ∧ AD.replan st bs = .error x := by
  unfold adErr at h
  split at h
  · cases h
  · rename_i st h1
    split at h
    · cases h
    · rename_i x' h2
      cases h
      exact ⟨st, h1, h2⟩

/-! ### A forward search repaired after a cost increase and a later decrease -/

def roadEdges : List (Nat × Nat × Nat) := [(0, 1, 1), (1, 3, 1), (3, 5, 1), (0, 2, 3), (2, 3, 1), (3, 4, 1)]
/-- the edge 0 → 1 becomes expensive -/
def jamEdges : List (Nat × Nat × Nat) := [(0, 1, 10), (1, 3, 1), (3, 5, 1), (0, 2, 3), (2, 3, 1), (3, 4, 1)]

/-- plan, then announce that the costs of edges into state 1 (out of state 0) changed; 100 states in total, so the
change is repaired incrementally -/
def jamOps : List AD.Op :=
  [.setGoal 5, .setStart 0, .replan [100, 100, 100], .costsChanged (tab jamEdges) [1] [0] 100]
/-- the jam is over again -/
def clearOps : List AD.Op := jamOps ++ [.replan [100, 100, 100], .costsChanged (tab roadEdges) [1] [0] 100]

theorem road_ad (fwd : Bool) : EnvAD (tab roadEdges) fwd 1 (some 5) := tab_ad (by decide) (by decide) (by simp)
theorem jam_ad (fwd : Bool) : EnvAD (tab jamEdges) fwd 1 (some 5) := tab_ad (by decide) (by decide) (by simp)

theorem jam_plain (fwd : Bool) : PlainOk True 1 (some 5) 2 fwd 1 (tab roadEdges) jamOps := by
  refine ⟨fun _ => .inr rfl, by simp, fun _ a b => tab_dual b a, jam_ad fwd, .inr ⟨?_, tab_sameHeur, fun _ => tab_noNew (by decide)⟩,
    trivial⟩
  cases fwd with
  | true => exact tab_covers_fwd (by decide) (by decide)
  | false => exact tab_covers_bwd (by decide) (by decide)

theorem clear_plain (fwd : Bool) : PlainOk True 1 (some 5) 2 fwd 1 (tab roadEdges) clearOps := by
  refine ⟨fun _ => .inr rfl, by simp, fun _ a b => tab_dual b a, jam_ad fwd, .inr ⟨?_, tab_sameHeur, fun _ => tab_noNew (by decide)⟩,
    by simp, fun _ a b => tab_dual b a, road_ad fwd, .inr ⟨?_, tab_sameHeur, fun _ => tab_noNew (by decide)⟩, trivial⟩
  · cases fwd with
    | true => exact tab_covers_fwd (by decide) (by decide)
    | false => exact tab_covers_bwd (by decide) (by decide)
  · cases fwd with
    | true => exact tab_covers_fwd (by decide) (by decide)
    | false => exact tab_covers_bwd (by decide) (by decide)

theorem hist_road {ops : List AD.Op} {fwd : Bool} (h : PlainOk True 1 (some 5) 2 fwd 1 (tab roadEdges) ops) :
    HistOk True 1 (some 5) 2 (AD.init (tab roadEdges) fwd 1 2 1 1 false) ops :=
  histOk_of_plain ops (AD.init_api (road_ad fwd) (by omega) (by omega) (by omega)) h

/-- after the jam the states 1 and 3 are expanded as underconsistent states, 3 a second time (trace [1, 3, 2, 3]) -/
theorem jamRun_eq : adRun (tab roadEdges) true 1 2 1 1 false jamOps [100, 100, 100] =
    some ⟨true, [0, 2, 3, 5], 5, some 1, [[1, 3, 2, 3], []]⟩ := by decide +kernel

theorem clearRun_eq : adRun (tab roadEdges) true 1 2 1 1 false clearOps [100, 100, 100] =
    some ⟨true, [0, 1, 3, 5], 3, some 1, [[1, 3], []]⟩ := by decide +kernel

theorem jamRunB_eq : adRun (tab roadEdges) false 1 2 1 1 false jamOps [100, 100, 100] =
    some ⟨true, [0, 2, 3, 5], 5, some 1, [[], []]⟩ := by decide +kernel

/-- C64–C67, C69, C70: the hypotheses are met by an incremental forward replan after a cost increase, which reports the
new optimum 5 with bound 1 -/
example : ∃ st st' res, EnvAD (tab roadEdges) true 1 (some 5) ∧ EpsOk 2 1 2 1 ∧
    HistOk True 1 (some 5) 2 (AD.init (tab roadEdges) true 1 2 1 1 false) jamOps ∧
    AD.run (AD.init (tab roadEdges) true 1 2 1 1 false) jamOps = some st ∧
    ADSpec.lastStart jamOps = some 0 ∧ ADSpec.lastGoal jamOps = some 5 ∧
    AD.replan st [100, 100, 100] = .ok (st', res) ∧ res.found = true ∧ res.finalEps = some 1 ∧
    NoTimeout [100, 100, 100] res.traces ∧
    PredsOk (ADSpec.lastEnv (tab roadEdges) jamOps) 0 ∧ Walk ((ADSpec.lastEnv (tab roadEdges) jamOps).succs 5) 0 5 5 := by
  obtain ⟨st, st', h1, h2⟩ := adRun_some jamRun_eq
  refine ⟨st, st', _, road_ad true, by unfold EpsOk; omega, hist_road (jam_plain true), h1, rfl, rfl, h2, rfl, rfl,
    ⟨4, by decide, by decide⟩, tab_preds _ _, ?_⟩
  show Walk ((tab jamEdges).succs 5) 0 5 5
  have w0 : Walk ((tab jamEdges).succs 5) 0 0 0 := .nil
  have w1 := w0.snoc (t := 2) (c := 3) (by decide)
  have w2 := w1.snoc (t := 3) (c := 1) (by decide)
  exact w2.snoc (t := 5) (c := 1) (by decide)

/-- the same after the jam is over, and backward -/
example : ∃ st st' res, HistOk True 1 (some 5) 2 (AD.init (tab roadEdges) true 1 2 1 1 false) clearOps ∧
    AD.run (AD.init (tab roadEdges) true 1 2 1 1 false) clearOps = some st ∧
    AD.replan st [100, 100, 100] = .ok (st', res) ∧ res.found = true ∧ res.cost = 3 := by
  obtain ⟨st, st', h1, h2⟩ := adRun_some clearRun_eq
  exact ⟨st, st', _, hist_road (clear_plain true), h1, h2, rfl, rfl⟩
example : ∃ st st' res, HistOk True 1 (some 5) 2 (AD.init (tab roadEdges) false 1 2 1 1 false) jamOps ∧
    AD.run (AD.init (tab roadEdges) false 1 2 1 1 false) jamOps = some st ∧
    AD.replan st [100, 100, 100] = .ok (st', res) ∧ res.found = true ∧ res.cost = 5 ∧
    DualAt (ADSpec.lastEnv (tab roadEdges) jamOps) 5 0 := by
  obtain ⟨st, st', h1, h2⟩ := adRun_some jamRunB_eq
  exact ⟨st, st', _, hist_road (jam_plain false), h1, h2, rfl, rfl, tab_dual _ _⟩

/-! ### A failure that is complete (C66) -/

def wallEdges : List (Nat × Nat × Nat) := [(0, 1, 1), (1, 3, 1), (5, 3, 1), (0, 2, 3), (2, 3, 1), (3, 4, 1)]
theorem wallRun_eq : adRun (tab wallEdges) true 1 2 1 1 false [.setGoal 5, .setStart 0] [100, 100, 100] =
    some ⟨false, [], 1000000000, none, [[0, 1, 3, 2, 4]]⟩ := by decide +kernel
example : ∃ st st' res, HistOk True 1 (some 5) 2 (AD.init (tab wallEdges) true 1 2 1 1 false) [.setGoal 5, .setStart 0] ∧
    AD.run (AD.init (tab wallEdges) true 1 2 1 1 false) [.setGoal 5, .setStart 0] = some st ∧
    AD.replan st [100, 100, 100] = .ok (st', res) ∧ res.found = false ∧ NoTimeout [100, 100, 100] res.traces := by
  obtain ⟨st, st', h1, h2⟩ := adRun_some wallRun_eq
  refine ⟨st, st', _, ?_, h1, h2, rfl, 5, by decide, by decide⟩
  exact histOk_of_plain _ (AD.init_api (tab_ad (by decide) (by decide) (by simp)) (by omega) (by omega) (by omega))
    ⟨fun _ => .inr rfl, trivial⟩

/-! ### C71: newly opened ways to unvisited states -/

def closedEdges : List (Nat × Nat × Nat) := [(0, 1, 1), (2, 1, 1)]
def openedEdges : List (Nat × Nat × Nat) := [(0, 2, 1), (0, 1, 1), (2, 1, 1), (2, 5, 1)]
def openOps : List AD.Op :=
  [.setGoal 5, .setStart 0, .replan [100, 100, 100], .costsChanged (tab openedEdges) [2, 5] [0, 2] 100]

/-- **C71, refuted** "After `costs_changed` with the complete list of changed states, `replan` finds a path if there is
one."  When the change opens edges towards states that were never visited, AD* skips them (only states visited since
the last restart are updated) and reports failure although the clock interrupted nothing, the environment and the
list of changes are correct, and a path of cost 2 exists. -/
theorem opened_way_is_missed :
    EnvAD (tab closedEdges) true 1 (some 5) ∧ EnvAD (tab openedEdges) true 1 (some 5) ∧
    Covers (tab closedEdges) (tab openedEdges) true [2, 5] (fun _ => True) ∧ SameHeur (tab closedEdges) (tab openedEdges) true ∧
    PredsOk (tab openedEdges) 0 ∧ Walk ((tab openedEdges).succs 5) 0 5 2 ∧
    ∃ st st' res, AD.run (AD.init (tab closedEdges) true 1 2 1 1 false) openOps = some st ∧
      AD.replan st [100, 100, 100] = .ok (st', res) ∧ res.found = false ∧ NoTimeout [100, 100, 100] res.traces := by
  refine ⟨tab_ad (by decide) (by decide) (by simp), tab_ad (by decide) (by decide) (by simp), tab_covers_fwd (by decide) (by decide),
    tab_sameHeur, tab_preds _ _, ?_, ?_⟩
  · have w0 : Walk ((tab openedEdges).succs 5) 0 0 0 := .nil
    have w1 := w0.snoc (t := 2) (c := 1) (by decide)
    exact w1.snoc (t := 5) (c := 1) (by decide)
  · obtain ⟨st, st', h1, h2⟩ := adRun_some (by decide +kernel :
      adRun (tab closedEdges) true 1 2 1 1 false openOps [100, 100, 100] = some ⟨false, [], 1000000000, none, [[]]⟩)
    exact ⟨st, st', _, h1, h2, rfl, 0, by decide, by decide⟩

/-! ### C72: moving an absorbing goal -/

def lineEdges : List (Nat × Nat × Nat) := [(0, 1, 1), (1, 2, 1)]
def lineEdges' : List (Nat × Nat × Nat) := [(0, 1, 5), (1, 2, 1)]
def moveOps : List AD.Op :=
  [.setGoal 2, .setStart 0, .replan [100, 100, 100], .setGoal 1, .costsChanged (tab lineEdges') [1] [0] 100,
    .replan [100, 100, 100], .setGoal 2]

/-- **C72, refuted** "Changing the goal between `replan` calls is safe."  In a forward search the goal has no
successors; if a state is the goal while its cost increases, the states behind it are not informed, and after the
goal is moved back `replan` raises "g-values are non-decreasing". -/
theorem moved_goal_raises :
    EnvOk (tab lineEdges) ∧ EnvOk (tab lineEdges') ∧ HeurOk (tab lineEdges) true ∧ HeurOk (tab lineEdges') true ∧
    Covers (tab lineEdges) (tab lineEdges') true [1] (fun _ => True) ∧ Walk ((tab lineEdges').succs 2) 0 2 6 ∧
    ∃ st, AD.run (AD.init (tab lineEdges) true 1 1 1 1 false) moveOps = some st ∧
      AD.replan st [100, 100, 100] = .error .nonDecreasing := by
  have e : ∀ es : List (Nat × Nat × Nat), (∀ e ∈ es, 1 ≤ e.2.2) → EnvAD (tab es) true 1 (some 0) := fun es h =>
    tab_ad h h (by simp)
  refine ⟨(e lineEdges (by decide)).ok, (e lineEdges' (by decide)).ok, (e lineEdges (by decide)).heur,
    (e lineEdges' (by decide)).heur, tab_covers_fwd (by decide) (by decide), ?_, ?_⟩
  · have w0 : Walk ((tab lineEdges').succs 2) 0 0 0 := .nil
    have w1 := w0.snoc (t := 1) (c := 5) (by decide)
    exact w1.snoc (t := 2) (c := 1) (by decide)
  · exact adErr_some (by decide +kernel : adErr (tab lineEdges) true 1 1 1 1 false moveOps [100, 100, 100] = some .nonDecreasing)

end Sbpl.ADProps
