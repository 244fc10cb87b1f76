import Verif.Props.LazyARA
import Verif.Props.LazyARATerm
/-!
# Concrete cases for `LazyARAPlanner`: non-vacuity of C74–C80, and the refuted expectations C81–C84
-/

namespace Sbpl.LazyProps
open LazyARA LazySpec

/-- An environment from a table of edges (from, to, listed cost, isTrueCost, value of GetTrueCost), the heuristic and the
heuristic before EnsureHeuristicsUpdated. -/
def tab (es : List (Nat × Nat × Nat × Bool × Int)) (h hp : Nat → Nat) : LEnv :=
  { succs := fun s => (es.filter (fun e => e.1 == s)).map (fun e => (e.2.1, e.2.2.1, e.2.2.2.1))
    preds := fun s => (es.filter (fun e => e.2.1 == s)).map (fun e => (e.1, e.2.2.1, e.2.2.2.1))
    trueCost := fun p s => ((es.find? (fun e => e.1 == p && e.2.1 == s)).map (fun e => e.2.2.2.2)).getD (-1)
    hGoal := h, hStart := fun _ => 0, hGoalPre := hp, hStartPre := fun _ => 0 }

variable {es : List (Nat × Nat × Nat × Bool × Int)} {h hp : Nat → Nat}

theorem tab_succs {p s c : Nat} {f : Bool} : (s, c, f) ∈ (tab es h hp).succs p ↔ ∃ t, (p, s, c, f, t) ∈ es := by
  simp only [tab, List.mem_map, List.mem_filter, beq_iff_eq]
  constructor
  · rintro ⟨⟨a, b, c', f', t⟩, ⟨h1, h2⟩, h3⟩
    simp only [Prod.mk.injEq] at h2 h3
    obtain ⟨rfl, rfl, rfl⟩ := h3
    subst h2
    exact ⟨t, h1⟩
  · rintro ⟨t, ht⟩
    exact ⟨(p, s, c, f, t), ⟨ht, rfl⟩, rfl⟩

theorem tab_preds {p s c : Nat} {f : Bool} : (s, c, f) ∈ (tab es h hp).preds p ↔ ∃ t, (s, p, c, f, t) ∈ es := by
  simp only [tab, List.mem_map, List.mem_filter, beq_iff_eq]
  constructor
  · rintro ⟨⟨a, b, c', f', t⟩, ⟨h1, h2⟩, h3⟩
    simp only [Prod.mk.injEq] at h2 h3
    obtain ⟨rfl, rfl, rfl⟩ := h3
    subst h2
    exact ⟨t, h1⟩
  · rintro ⟨t, ht⟩
    exact ⟨(s, p, c, f, t), ⟨ht, rfl⟩, rfl⟩

theorem tab_ok (d : ∀ e ∈ es, 1 ≤ e.2.2.1) : LEnvOk (tab es h hp) := by
  constructor
  · intro p s c f hm
    obtain ⟨t, ht⟩ := tab_succs.mp hm
    exact d _ ht
  · intro p s c f hm
    obtain ⟨t, ht⟩ := tab_preds.mp hm
    exact d _ ht

/-- a real edge of the table -/
def realTo (es : List (Nat × Nat × Nat × Bool × Int)) (h hp : Nat → Nat) (e : Nat × Nat × Nat × Bool × Int) (c : Nat) : Prop :=
  (e.2.2.2.1 = true ∧ c = e.2.2.1) ∨ (e.2.2.2.1 = false ∧ (tab es h hp).trueCost e.1 e.2.1 = (c : Int) ∧ 0 < c)

theorem tab_edge {p s c : Nat} (he : Edge (tab es h hp) p s c) : ∃ e ∈ es, e.1 = p ∧ e.2.1 = s ∧ realTo es h hp e c := by
  rcases he with hm | ⟨lc, hm, ht, h0⟩
  · obtain ⟨t, ht⟩ := tab_succs.mp hm
    exact ⟨_, ht, rfl, rfl, .inl ⟨rfl, rfl⟩⟩
  · obtain ⟨t, ht'⟩ := tab_succs.mp hm
    exact ⟨_, ht', rfl, rfl, .inr ⟨rfl, ht, h0⟩⟩

/-- decidable form of consistency and of lower bounds -/
def checkE (es : List (Nat × Nat × Nat × Bool × Int)) (h hp : Nat → Nat) : Bool :=
  es.all (fun e => if e.2.2.2.1 then decide (h e.1 ≤ h e.2.1 + e.2.2.1)
    else decide ((tab es h hp).trueCost e.1 e.2.1 ≤ 0 ∨
      ((h e.1 : Int) ≤ h e.2.1 + (tab es h hp).trueCost e.1 e.2.1 ∧ (e.2.2.1 : Int) ≤ (tab es h hp).trueCost e.1 e.2.1)))

theorem tab_consistent {gl : Nat} (h0 : h gl = 0) (d : checkE es h hp = true) : Consistent (tab es h hp) gl := by
  refine ⟨h0, ?_⟩
  intro s t c he
  obtain ⟨e, h1, rfl, rfl, h4⟩ := tab_edge he
  have := List.all_eq_true.mp d e h1
  rcases h4 with ⟨h5, h6⟩ | ⟨h5, h6, h7⟩
  · rw [h5, if_pos rfl, ← h6] at this
    exact of_decide_eq_true this
  · rw [h5, if_neg (by simp), h6] at this
    have := of_decide_eq_true this
    show h e.1 ≤ h e.2.1 + c
    omega

theorem tab_lower (d : checkE es h hp = true) : LazyLower (tab es h hp) := by
  intro p s lc hm h0
  obtain ⟨t, ht⟩ := tab_succs.mp hm
  have := List.all_eq_true.mp d _ ht
  simp only [Bool.false_eq_true, if_false] at this
  have := of_decide_eq_true this
  omega

/-- start and goal are set, and nothing else happens before the call of interest -/
theorem simple_hist {env : LEnv} {fwd : Bool} {a b : Nat} {bs : List Nat} (he : LEnvOk env) (hb : bs.length < 65535)
    (h0 : (if fwd then env.hGoalPre b else env.hStartPre b) = 0) : HistOk fwd env ([.setStart a, .setGoal b] ++ [.replan bs]) := by
  refine ⟨he, ?_, ?_, ⟨h0, trivial⟩, by show 1 < 65535; omega⟩
  · intro op hop env' e
    simp only [List.cons_append, List.nil_append, List.mem_cons, List.not_mem_nil, or_false] at hop
    rcases hop with rfl | rfl | rfl <;> cases e
  · intro op hop bs' e
    simp only [List.cons_append, List.nil_append, List.mem_cons, List.not_mem_nil, or_false] at hop
    rcases hop with rfl | rfl | rfl
    · cases e
    · cases e
    · cases e; exact hb

/-- a planner for the table with start `a` and goal `b` -/
def mkSt (env : LEnv) (fwd : Bool) (ie fe de : Nat) (fs : Bool) (a b : Nat) : LazyARA :=
  ((LazyARA.init env stdQueue fwd 1 ie fe de fs).setStart a).setGoal b

theorem mkSt_run (env : LEnv) (fwd : Bool) (ie fe de : Nat) (fs : Bool) (a b : Nat) :
    (LazyARA.init env stdQueue fwd 1 ie fe de fs).run [.setStart a, .setGoal b] = some (mkSt env fwd ie fe de fs a b) := rfl

theorem run_snoc {st0 st st' : LazyARA} {a b : Nat} {bs : List Nat} {r : LazyARA.Result} (h : st0.run [.setStart a, .setGoal b] = some st)
    (e : st.replan bs = .ok (st', r)) : st0.run [.setStart a, .setGoal b, .replan bs] = some st' := by
  simp only [LazyARA.run, LazyARA.call, Option.some.injEq] at h ⊢
  subst h
  rw [e]

/-- the result of a call -/
def resOf (st : LazyARA) (bs : List Nat) : Option LazyARA.Result :=
  match st.replan bs with
  | .ok (_, r) => some r
  | .error _ => none

theorem resOf_some {st : LazyARA} {bs : List Nat} {r : LazyARA.Result} (e : resOf st bs = some r) : ∃ st', st.replan bs = .ok (st', r) := by
  unfold resOf at e
  split at e
  next st' r' h => cases e; exact ⟨st', h⟩
  next => cases e

/-! ### the running example -/

/-- A graph with one listed edge (1 → 6) that turns out not to exist, and an expensive direct way. -/
def esA : List (Nat × Nat × Nat × Bool × Int) :=
  [(0, 1, 1, true, 1), (0, 2, 2, true, 2), (0, 3, 8, true, 8), (0, 4, 9, true, 9), (0, 5, 1, true, 1), (0, 7, 12, true, 12),
   (1, 6, 2, false, -1), (2, 6, 5, true, 5), (3, 6, 1, true, 1), (4, 6, 11, true, 11), (5, 3, 3, true, 3), (6, 7, 3, true, 3)]
def hA (s : Nat) : Nat := if s = 5 ∨ s = 6 then 3 else 0
def envA : LEnv := tab esA hA hA

theorem envA_ok : LEnvOk envA := tab_ok (by decide)
theorem envA_consistent : Consistent envA 7 := tab_consistent rfl (by decide +kernel)
theorem envA_lower : LazyLower envA := tab_lower (by decide +kernel)

theorem walkA : RWalk (Edge envA) 0 7 8 := by
  have e1 : Edge envA 0 5 1 := .inl (by decide +kernel)
  have e2 : Edge envA 5 3 3 := .inl (by decide +kernel)
  have e3 : Edge envA 3 6 1 := .inl (by decide +kernel)
  have e4 : Edge envA 6 7 3 := .inl (by decide +kernel)
  exact (((RWalk.nil.snoc e1).snoc e2).snoc e3).snoc e4

theorem runA : resOf (mkSt envA true 3 1 1 false 0 7) [100, 100, 100] =
    some ⟨true, [0, 2, 6, 7], 10, some 1, [⟨1, false, [0, 1, 2, 3, 4, 5]⟩, ⟨1, false, [3]⟩, ⟨1, false, [6]⟩]⟩ := by
  decide +kernel

/-- The hypotheses of `path_sound`, `bound`, `expands_once` are met by a run of three passes. -/
example : ∃ wf st st' res, QueueOk stdQueue wf ∧ HistOk true envA ([.setStart 0, .setGoal 7] ++ [.replan [100, 100, 100]]) ∧
    (LazyARA.init envA stdQueue true 1 3 1 1 false).run [.setStart 0, .setGoal 7] = some st ∧
    ids [.setStart 0, .setGoal 7] (none, none) = (some 0, some 7) ∧ st.replan [100, 100, 100] = .ok (st', res) ∧
    res.found = true ∧ (∀ p ∈ res.passes, p.out = false) ∧ res.passes.length = 3 ∧ LazyLower envA ∧ Consistent envA 7 ∧
    3 * envA.hGoalPre 0 / 1 < INFINITECOST ∧ RWalk (Edge envA) 0 7 8 ∧ 3 * 8 < INFINITECOST := by
  obtain ⟨wf, q⟩ := stdQueue_ok
  obtain ⟨st', e⟩ := resOf_some runA
  exact ⟨wf, _, st', _, q, simple_hist envA_ok (by decide) rfl, mkSt_run _ _ _ _ _ _ _ _, rfl, e, rfl, by decide, rfl, envA_lower,
    envA_consistent, by decide, walkA, by decide⟩

/-- **C83** The eps reported after several passes is not a bound, even with unlimited time, lower bounds as unevaluated costs
and a consistent heuristic: eps = 1 is reported for a path of real cost 10 although there is one of cost 8. -/
theorem reported_eps_not_a_bound :
    ∃ (env : LEnv) (st st' : LazyARA) (res : LazyARA.Result),
      HistOk true env ([.setStart 0, .setGoal 7] ++ [.replan [100, 100, 100]]) ∧ LazyLower env ∧ Consistent env 7 ∧ env.hGoalPre = env.hGoal ∧
      (LazyARA.init env stdQueue true 1 3 1 1 false).run [.setStart 0, .setGoal 7] = some st ∧
      st.replan [100, 100, 100] = .ok (st', res) ∧ res.found = true ∧ (∀ p ∈ res.passes, p.out = false) ∧
      res.finalEps = some 1 ∧ res.cost = 10 ∧ (∃ k, RPath (Edge env) res.path k ∧ 10 ≤ k) ∧ RWalk (Edge env) 0 7 8 := by
  obtain ⟨wf, q⟩ := stdQueue_ok
  obtain ⟨st', e⟩ := resOf_some runA
  have hok : HistOk true envA ([.setStart 0, .setGoal 7] ++ [.replan [100, 100, 100]]) := simple_hist envA_ok (by decide) rfl
  obtain ⟨_, _, _, h, _⟩ := path_sound q hok (mkSt_run _ _ _ _ _ _ _ _) rfl e rfl
  obtain ⟨k, h1, h2⟩ := h (by decide)
  exact ⟨envA, _, st', _, hok, envA_lower, envA_consistent, rfl, mkSt_run _ _ _ _ _ _ _ _, e, rfl, by decide, rfl, rfl, ⟨k, h1, h2 envA_lower⟩, walkA⟩

/-- The hypotheses of `enough_time` and `enough_time_found` are met by the same run: 8 states, 12 edges, 3 passes, 60 ≤ 100. -/
example : HistOk true envA ([.setStart 0, .setGoal 7] ++ [.replan [100, 100, 100]]) ∧ (List.range 8).Nodup ∧ 0 ∈ List.range 8 ∧ 7 ∈ List.range 8 ∧
    (∀ u ∈ List.range 8, ∀ e ∈ envA.succs u, e.1 ∈ List.range 8) ∧ (∀ n ∈ [100, 100, 100], [100, 100, 100].length * size envA.succs (List.range 8) ≤ n) ∧
    size envA.succs (List.range 8) = 20 ∧ 3 ≤ 1 + ([100, 100, 100].length - 1) * 1 :=
  ⟨simple_hist envA_ok (by decide) rfl, by decide +kernel, by decide, by decide, by decide +kernel, by decide +kernel, by decide +kernel, by decide⟩

/-! ### true costs only -/

/-- the same graph with nothing left to evaluate -/
def envT : LEnv := tab (esA.filter (fun e => e.2.2.2.1)) hA hA

theorem runT : resOf (mkSt envT true 3 1 1 false 0 7) [100, 1, 100] =
    some ⟨true, [0, 7], 12, some 3, [⟨1, false, [0, 1, 2, 3, 4, 5]⟩, ⟨2, true, [3]⟩]⟩ := by
  decide +kernel

theorem runT' : resOf (mkSt envT true 3 1 1 false 0 7) [100, 100, 100] =
    some ⟨true, [0, 5, 3, 6, 7], 8, some 1, [⟨1, false, [0, 1, 2, 3, 4, 5]⟩, ⟨1, false, [3, 6]⟩, ⟨1, false, []⟩]⟩ := by
  decide +kernel

/-- The hypotheses of `true_costs_bound` are met by a run whose second pass is ended by the clock. -/
example : ∃ wf st st' res, QueueOk stdQueue wf ∧ HistOk true envT ([.setStart 0, .setGoal 7] ++ [.replan [100, 1, 100]]) ∧
    (LazyARA.init envT stdQueue true 1 3 1 1 false).run [.setStart 0, .setGoal 7] = some st ∧
    ids [.setStart 0, .setGoal 7] (none, none) = (some 0, some 7) ∧ st.replan [100, 1, 100] = .ok (st', res) ∧ res.found = true ∧
    (∃ p ∈ res.passes, p.out = true) ∧ (∀ p s c f, (s, c, f) ∈ envT.succs p → f = true) ∧ res.finalEps = some 3 ∧ Consistent envT 7 ∧
    3 * envT.hGoalPre 0 / 1 < INFINITECOST ∧ 1 * envT.hGoalPre 0 / 1 < INFINITECOST ∧ RWalk (Edge envT) 0 7 8 := by
  obtain ⟨wf, q⟩ := stdQueue_ok
  obtain ⟨st', e⟩ := resOf_some runT
  refine ⟨wf, _, st', _, q, simple_hist (tab_ok (by decide)) (by decide) rfl, mkSt_run _ _ _ _ _ _ _ _, rfl, e, rfl, by decide, ?_, rfl,
    tab_consistent rfl (by decide +kernel), by decide, by decide, ?_⟩
  · intro p s c f hm
    obtain ⟨t, ht⟩ := tab_succs.mp hm
    have := List.mem_filter.mp ht
    exact this.2
  · have e1 : Edge envT 0 5 1 := .inl (by decide +kernel)
    have e2 : Edge envT 5 3 3 := .inl (by decide +kernel)
    have e3 : Edge envT 3 6 1 := .inl (by decide +kernel)
    have e4 : Edge envT 6 7 3 := .inl (by decide +kernel)
    exact (((RWalk.nil.snoc e1).snoc e2).snoc e3).snoc e4

/-- The hypotheses of `first_not_cut` are met. -/
example : ∃ st st' res, (LazyARA.init envA stdQueue true 1 3 1 1 true).run [.setStart 0, .setGoal 7] = some st ∧
    st.replan [100] = .ok (st', res) ∧ res.found = true ∧ (lastParams (3, 1, 1, true) [.setStart 0, .setGoal 7]).2.2.2 = true := by
  have e : resOf (mkSt envA true 3 1 1 true 0 7) [100] = some ⟨true, [0, 7], 12, some 3, [⟨1, false, [0, 1, 2, 3, 4, 5]⟩]⟩ := by decide +kernel
  obtain ⟨st', e⟩ := resOf_some e
  exact ⟨_, st', _, mkSt_run _ _ _ _ _ _ _ _, e, rfl, rfl⟩

/-! ### no walk -/

theorem no_walk {E : Rel} {a b : Nat} (n : a ≠ b) (h : ∀ p c, ¬ E p b c) : ∀ c, ¬ RWalk E a b c := by
  intro c w
  cases w with
  | nil => exact n rfl
  | snoc _ e => exact h _ _ e

/-! ### the clock -/

/-- one listed edge, which does not exist -/
def esC : List (Nat × Nat × Nat × Bool × Int) := [(0, 1, 1, false, -1)]
def envC : LEnv := tab esC (fun _ => 0) (fun _ => 0)

/-- **C81** If the clock ends a pass, a path may be reported, with an eps, although the goal cannot be reached at all: the last
edge has not been evaluated. -/
theorem timeout_reports_nonexistent_edge :
    ∃ (env : LEnv) (st st' : LazyARA) (res : LazyARA.Result),
      HistOk true env ([.setStart 0, .setGoal 1] ++ [.replan [1]]) ∧ LazyLower env ∧ Consistent env 1 ∧ env.hGoalPre = env.hGoal ∧
      (LazyARA.init env stdQueue true 1 3 1 1 false).run [.setStart 0, .setGoal 1] = some st ∧
      st.replan [1] = .ok (st', res) ∧ res.found = true ∧ res.path = [0, 1] ∧ res.finalEps = some 3 ∧ ∀ c, ¬ RWalk (Edge env) 0 1 c := by
  have e : resOf (mkSt envC true 3 1 1 false 0 1) [1] = some ⟨true, [0, 1], 1, some 3, [⟨1, true, [0]⟩]⟩ := by decide +kernel
  obtain ⟨st', e⟩ := resOf_some e
  refine ⟨envC, _, st', _, simple_hist (tab_ok (by decide)) (by decide) rfl, tab_lower (by decide +kernel), tab_consistent rfl (by decide +kernel), rfl,
    mkSt_run _ _ _ _ _ _ _ _, e, rfl, rfl, rfl, no_walk (by decide) ?_⟩
  intro p c he
  obtain ⟨e, h1, h2, h3, h4⟩ := tab_edge he
  simp only [esC, List.mem_singleton] at h1
  subst h1
  rcases h4 with ⟨h5, _⟩ | ⟨_, h6, h7⟩
  · cases h5
  · have : (tab esC (fun _ => 0) (fun _ => 0)).trueCost 0 1 = -1 := by decide +kernel
    simp only [this] at h6
    omega

/-! ### the reported cost -/

/-- one edge, listed with cost 1, of real cost 100 -/
def esD : List (Nat × Nat × Nat × Bool × Int) := [(0, 1, 1, false, 100)]
def envD : LEnv := tab esD (fun _ => 0) (fun _ => 0)

/-- **C82** The reported cost of a path may be far below its real cost, even with unlimited time. -/
theorem reported_cost_too_low :
    ∃ (env : LEnv) (st st' : LazyARA) (res : LazyARA.Result),
      HistOk true env ([.setStart 0, .setGoal 1] ++ [.replan [10, 10, 10]]) ∧ LazyLower env ∧ Consistent env 1 ∧ env.hGoalPre = env.hGoal ∧
      (LazyARA.init env stdQueue true 1 3 1 1 false).run [.setStart 0, .setGoal 1] = some st ∧
      st.replan [10, 10, 10] = .ok (st', res) ∧ res.found = true ∧ res.path = [0, 1] ∧ res.cost = 1 ∧ (∀ p ∈ res.passes, p.out = false) ∧
      RPath (Edge env) [0, 1] 100 ∧ ∀ k, RPath (Edge env) [0, 1] k → k = 100 := by
  have e : resOf (mkSt envD true 3 1 1 false 0 1) [10, 10, 10] = some ⟨true, [0, 1], 1, some 1, [⟨1, false, [0]⟩, ⟨1, false, []⟩, ⟨1, false, []⟩]⟩ := by
    decide +kernel
  obtain ⟨st', e⟩ := resOf_some e
  have e1 : Edge envD 0 1 100 := .inr ⟨1, by decide +kernel, by decide +kernel, by decide⟩
  refine ⟨envD, _, st', _, simple_hist (tab_ok (by decide)) (by decide) rfl, tab_lower (by decide +kernel), tab_consistent rfl (by decide +kernel), rfl,
    mkSt_run _ _ _ _ _ _ _ _, e, rfl, rfl, rfl, by decide, RPath.cons e1 (.single 1), ?_⟩
  intro k p
  cases p with
  | cons he p =>
    cases p with
    | single =>
      obtain ⟨e, h1, h2, h3, h4⟩ := tab_edge he
      simp only [esD, List.mem_singleton] at h1
      subst h1
      rcases h4 with ⟨h5, _⟩ | ⟨_, h6, h7⟩
      · cases h5
      · have : (tab esD (fun _ => 0) (fun _ => 0)).trueCost 0 1 = 100 := by decide +kernel
        simp only [this] at h6
        omega

/-! ### heuristic values that are out of date -/

/-- a direct way, and a listed edge 1 → 2 that does not exist -/
def esS : List (Nat × Nat × Nat × Bool × Int) := [(0, 2, 10, true, 10), (0, 1, 1, true, 1), (1, 2, 4, false, -1)]
def envS : LEnv := tab esS (fun s => if s = 1 then 3 else 0) (fun s => if s = 2 then 10 else 0)

/-- **C84** The heuristic value of the goal is read before EnsureHeuristicsUpdated is called.  If it is out of date, a path over
an edge that does not exist is reported as optimal, with unlimited time, although the heuristic in force is consistent. -/
theorem stale_goal_heuristic :
    ∃ (env : LEnv) (st st' : LazyARA) (res : LazyARA.Result),
      LEnvOk env ∧ LazyLower env ∧ Consistent env 2 ∧
      (LazyARA.init env stdQueue true 1 3 1 1 false).run [.setStart 0, .setGoal 2] = some st ∧
      st.replan [10, 10, 10] = .ok (st', res) ∧ res.found = true ∧ (∀ p ∈ res.passes, p.out = false) ∧ res.finalEps = some 1 ∧
      res.path = [0, 1, 2] ∧ ∀ k, ¬ RPath (Edge env) [0, 1, 2] k := by
  have e : resOf (mkSt envS true 3 1 1 false 0 2) [10, 10, 10] = some ⟨true, [0, 1, 2], 5, some 1, [⟨1, false, [0]⟩, ⟨1, false, [1]⟩, ⟨1, false, []⟩]⟩ := by
    decide +kernel
  obtain ⟨st', e⟩ := resOf_some e
  refine ⟨envS, _, st', _, tab_ok (by decide), tab_lower (by decide +kernel), tab_consistent rfl (by decide +kernel),
    mkSt_run _ _ _ _ _ _ _ _, e, rfl, by decide, rfl, rfl, ?_⟩
  intro k p
  cases p with
  | cons _ p =>
    cases p with
    | cons he _ =>
      obtain ⟨e, h1, h2, h3, h4⟩ := tab_edge he
      simp only [esS, List.mem_cons, List.not_mem_nil, or_false] at h1
      rcases h1 with rfl | rfl | rfl
      · exact absurd h2 (by decide)
      · exact absurd h3 (by decide)
      · rcases h4 with ⟨h5, _⟩ | ⟨_, h6, h7⟩
        · cases h5
        · have : ∀ h hp, (tab esS h hp).trueCost 1 2 = -1 := fun _ _ => by simp [tab, esS]
          simp only [this] at h6
          omega

/-! ### backward search -/

/-- a way from 1 to 0, and none back -/
def esB : List (Nat × Nat × Nat × Bool × Int) := [(1, 2, 1, true, 1), (2, 0, 4, false, 4)]
def envB : LEnv := tab esB (fun _ => 0) (fun _ => 0)

/-- **C80, witness** With `forward_search = false` a "path" is found from 0 to 1 although there is none: it leads from 1 to 0. -/
theorem backward_wrong_way :
    ∃ (env : LEnv) (st st' : LazyARA) (res : LazyARA.Result),
      HistOk false env ([.setStart 0, .setGoal 1] ++ [.replan [10, 10, 10]]) ∧ LazyLower env ∧ Consistent env 1 ∧
      (∀ p s c, Edge env p s c ↔ EdgeBack env p s c) ∧
      (LazyARA.init env stdQueue false 1 3 1 1 false).run [.setStart 0, .setGoal 1] = some st ∧
      st.replan [10, 10, 10] = .ok (st', res) ∧ res.found = true ∧ (∀ p ∈ res.passes, p.out = false) ∧ res.path = [1, 2, 0] ∧
      ∀ c, ¬ RWalk (Edge env) 0 1 c := by
  have e : resOf (mkSt envB false 3 1 1 false 0 1) [10, 10, 10] = some ⟨true, [1, 2, 0], 5, some 1, [⟨1, false, [0, 2]⟩, ⟨1, false, []⟩, ⟨1, false, []⟩]⟩ := by
    decide +kernel
  obtain ⟨st', e⟩ := resOf_some e
  refine ⟨envB, _, st', _, simple_hist (tab_ok (by decide)) (by decide) rfl, tab_lower (by decide +kernel), tab_consistent rfl (by decide +kernel), ?_,
    mkSt_run _ _ _ _ _ _ _ _, e, rfl, by decide, rfl, no_walk (by decide) ?_⟩
  · intro p s c
    unfold Edge EdgeBack envB
    simp only [tab_succs, tab_preds]
  · intro p c he
    obtain ⟨e, h1, h2, h3, h4⟩ := tab_edge he
    simp only [esB, List.mem_cons, List.not_mem_nil, or_false] at h1
    rcases h1 with rfl | rfl
    · exact absurd h3 (by decide)
    · exact absurd h3 (by decide)

/-- The same one-way street in the right direction is reported as impassable. -/
theorem backward_misses :
    ∃ (env : LEnv) (st st' : LazyARA) (res : LazyARA.Result),
      HistOk false env ([.setStart 1, .setGoal 0] ++ [.replan [10, 10, 10]]) ∧
      (LazyARA.init env stdQueue false 1 3 1 1 false).run [.setStart 1, .setGoal 0] = some st ∧
      st.replan [10, 10, 10] = .ok (st', res) ∧ res.found = false ∧ (∀ p ∈ res.passes, p.out = false) ∧ RWalk (Edge env) 1 0 5 := by
  have e : resOf (mkSt envB false 3 1 1 false 1 0) [10, 10, 10] = some ⟨false, [], 0, none, [⟨0, false, [1]⟩]⟩ := by
    decide +kernel
  obtain ⟨st', e⟩ := resOf_some e
  refine ⟨envB, _, st', _, simple_hist (tab_ok (by decide)) (by decide) rfl, mkSt_run _ _ _ _ _ _ _ _, e, rfl, by decide, ?_⟩
  have e1 : Edge envB 1 2 1 := .inl (by decide +kernel)
  have e2 : Edge envB 2 0 4 := .inr ⟨4, by decide +kernel, by decide +kernel, by decide⟩
  exact (RWalk.nil.snoc e1).snoc e2

/-- The hypotheses of `ids_consumed` and `exceptions` are met after a complete query. -/
example : ∃ wf st, QueueOk stdQueue wf ∧ HistOk true envA [.setStart 0, .setGoal 7, .replan [100, 100, 100]] ∧
    (LazyARA.init envA stdQueue true 1 3 1 1 false).run [.setStart 0, .setGoal 7, .replan [100, 100, 100]] = some st ∧
    ids [.setStart 0, .setGoal 7, .replan [100, 100, 100]] (none, none) = (none, none) := by
  obtain ⟨wf, q⟩ := stdQueue_ok
  obtain ⟨st', e⟩ := resOf_some runA
  refine ⟨wf, st', q, simple_hist envA_ok (by decide) rfl, ?_, rfl⟩
  exact run_snoc (mkSt_run _ _ _ _ _ _ _ _) e

end Sbpl.LazyProps
