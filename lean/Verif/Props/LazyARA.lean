import Verif.Proofs.LazyARAHist
/-!
# Properties of `LazyARAPlanner` over arbitrary histories of interface calls (C74–C79)

In the theorems a planner is constructed on environment `env0`, an arbitrary list `ops` of interface calls is made - the
environment may change at any time - and then `replan` is called with an arbitrary time limit (`bs`: how many loop checks the
clock allows in each pass).  The lists of unevaluated edges are kept in any priority queue satisfying `QueueOk`
(`stdQueue_ok`: libstdc++'s does).
-/

namespace Sbpl.LazyProps
open LazyARA LazySpec

/-- What a history of calls must satisfy: positive costs, fewer than 65534 replan calls and 65535 passes in each (16-bit
counters), the heuristic value of the goal is 0. -/
structure HistOk (fwd : Bool) (env0 : LEnv) (ops : List Op) : Prop where
  env : LEnvOk env0
  envs : AllEnv LEnvOk ops
  few : FewPasses ops
  zero : GoalsZero fwd env0 (none, none) ops
  num : replans ops < 65535

/-- libstdc++'s priority queue is a priority queue. -/
theorem stdQueue_ok : ∃ wf, QueueOk stdQueue wf := ⟨_, StdHeap.ok⟩

section
variable {wf : (LazyElem → Nat) → List LazyElem → Prop} {Q : LQueue} {env0 : LEnv} {fwd : Bool} {D ie fe de : Nat} {fs : Bool}
  {ops : List Op} {st st' : LazyARA} {bs : List Nat} {res : LazyARA.Result} {a b : Nat}

theorem goalsZero_append (ops ops' : List Op) : ∀ {env : LEnv} {i : Option Nat × Option Nat}, GoalsZero fwd env i (ops ++ ops') →
    GoalsZero fwd env i ops ∧ GoalsZero fwd (lastEnv env ops) (ids ops i) ops' := by
  induction ops with
  | nil => intro env i h; exact ⟨trivial, h⟩
  | cons op ops ih =>
    intro env i h
    cases op with
    | replan bs =>
      rcases i with ⟨_ | x, _ | y⟩
      · exact ih h
      · exact ih h
      · exact ih h
      · exact ⟨⟨h.1, (ih h.2).1⟩, (ih h.2).2⟩
    | _ => exact ih h

theorem replans_append (ops : List Op) (bs : List Nat) : replans (ops ++ [.replan bs]) = replans ops + 1 := by
  induction ops with
  | nil => rfl
  | cons op ops ih => cases op <;> simp only [List.cons_append, replans, ih]

theorem HistOk.init (h : HistOk fwd env0 (ops ++ [.replan bs])) : HistOk fwd env0 ops := by
  refine ⟨h.env, fun o ho => h.envs o (List.mem_append_left _ ho), fun o ho => h.few o (List.mem_append_left _ ho), (goalsZero_append ops _ h.zero).1, ?_⟩
  have := h.num
  rw [replans_append] at this
  omega

/-- the state reached before the call of interest -/
theorem hist (hQ : QueueOk Q wf) (hok : HistOk fwd env0 ops) (hrun : (LazyARA.init env0 Q fwd D ie fe de fs).run ops = some st) :
    RunInv (LazyARA.init env0 Q fwd D ie fe de fs) ops st := by
  refine run_spec (wf := wf) ops hQ (init_hist _ _ _ _ _ _ _ _) hok.env hok.envs hok.few ?_ ?_ hrun
  · have : (LazyARA.init env0 Q fwd D ie fe de fs).userIds = (none, none) := by unfold userIds; cases fwd <;> rfl
    rw [this]; exact hok.zero
  · show 0 + replans ops < 65536 - 1
    have := hok.num
    omega

theorem lastEnv_ok (ops : List Op) : ∀ {env : LEnv}, LEnvOk env → AllEnv LEnvOk ops → LEnvOk (lastEnv env ops) := by
  induction ops with
  | nil => intro env h _; exact h
  | cons op ops ih =>
    intro env h a
    have a' : AllEnv LEnvOk ops := fun o ho => a o (List.mem_cons_of_mem _ ho)
    cases op with
    | setEnv env' => exact ih (a _ List.mem_cons_self _ rfl) a'
    | _ => exact ih h a'

/-- everything known about a replan call that has a start and a goal -/
theorem replan_post (hQ : QueueOk Q wf) (hok : HistOk fwd env0 (ops ++ [.replan bs]))
    (hrun : (LazyARA.init env0 Q fwd D ie fe de fs).run ops = some st) (hid : ids ops (none, none) = (some a, some b)) :
    (st.fwd = fwd ∧ st.D = D ∧ st.env = lastEnv env0 ops ∧ st.pars = lastParams (ie, fe, de, fs) ops ∧ LEnvOk st.env) ∧
      OkOrT st.first (st.replan bs) (fun r => r.1.userIds = (none, none) ∧ ∃ x, SearchPost st a b bs (x, r.2)) := by
  have i := hist hQ hok.init hrun
  have hu : st.userIds = (some a, some b) := by
    have := i.ids
    have e : (LazyARA.init env0 Q fwd D ie fe de fs).userIds = (none, none) := by unfold userIds; cases fwd <;> rfl
    rw [e, hid] at this
    exact this
  have eo : LEnvOk st.env := by rw [i.env]; exact lastEnv_ok ops hok.env hok.init.envs
  have hnum : st.num + 1 < SHORT - 1 := by
    have h1 := i.num
    have h2 := hok.num
    rw [replans_append] at h2
    have : (LazyARA.init env0 Q fwd D ie fe de fs).num = 0 := rfl
    rw [this] at h1
    show _ < 65536 - 1
    omega
  have hz : st.hPre b = 0 := by
    have := (goalsZero_append ops _ hok.zero).2
    rw [hid] at this
    have := this.1
    unfold hPre
    rw [i.env, i.fwd]; exact this
  have sp := search_spec (wf := wf) (s0 := a) (gl := b) (bs := bs) (by rw [i.Q]; exact hQ) (posN eo) i.hist hnum
    (hok.few _ (List.mem_append_right _ List.mem_cons_self) bs rfl) hz
  refine ⟨⟨i.fwd, i.D, i.env, i.pars, eo⟩, ?_⟩
  rw [replan_some hu]
  cases es : st.search bs a b with
  | error x => rw [es] at sp; exact sp
  | ok r =>
    rw [es] at sp
    obtain ⟨st1, r⟩ := r
    refine ⟨?_, st1, sp⟩
    unfold userIds
    cases st1.fwd <;> rfl

theorem fwd_E (hf : st.fwd = true) : st.E = Edge st.env := by
  funext p s c; simp only [LazyARA.E, Edge, LazyARA.nbr, LazyARA.trueCost, hf, if_true]

theorem bwd_E (hf : st.fwd = false) : st.E = fun p s c => EdgeBack st.env s p c := by
  funext p s c; simp only [LazyARA.E, EdgeBack, LazyARA.nbr, LazyARA.trueCost, hf, Bool.false_eq_true, if_false]

theorem fwd_low (hf : st.fwd = true) (h : LazyLower st.env) : Low st := by
  intro p s lc
  simp only [LazyARA.nbr, LazyARA.trueCost, hf, if_true]
  exact h p s lc

theorem fwd_eps (hf : st.fwd = true) {e N M : Nat} (hMN : M ≤ N) (h : HeurUpTo st.env st.D e N M) : EpsAt st e ⟨N, M⟩ := by
  refine ⟨hMN, ?_⟩
  rw [fwd_E hf]
  simp only [LazyARA.hOf, hf, if_true]
  exact h

/-- **C74** If no pass was ended by the clock, the path returned leads from the start to the goal over edges that exist (listed
with a true cost or evaluated), and - if unevaluated costs are lower bounds - the reported cost is at most its real cost.
In any case this holds for all edges but the last, and the reported cost is the sum of the smallest listed costs. -/
theorem path_sound (hQ : QueueOk Q wf) (hok : HistOk true env0 (ops ++ [.replan bs]))
    (hrun : (LazyARA.init env0 Q true D ie fe de fs).run ops = some st) (hid : ids ops (none, none) = (some a, some b))
    (hr : st.replan bs = .ok (st', res)) (hf : res.found = true) :
    res.path.head? = some a ∧ res.path.getLast? = some b ∧ RPath (CheapListed (lastEnv env0 ops)) res.path res.cost ∧
      ((∀ p ∈ res.passes, p.out = false) →
        ∃ k, RPath (Edge (lastEnv env0 ops)) res.path k ∧ (LazyLower (lastEnv env0 ops) → res.cost ≤ k)) ∧
      ((∃ k, RPath (Edge (lastEnv env0 ops)) res.path k) ∨
        ∃ q p k, res.path = q ++ [b] ∧ q.getLast? = some p ∧ RPath (Edge (lastEnv env0 ops)) q k ∧ Listed (lastEnv env0 ops) p b) := by
  obtain ⟨⟨i1, i2, i3, i4, i5⟩, sp⟩ := replan_post hQ hok hrun hid
  rw [hr] at sp
  obtain ⟨_, x, sp⟩ := (sp : _ ∧ ∃ x, SearchPost st a b bs (x, res))
  obtain ⟨l, y, hl, pp, _⟩ := sp.found hf
  have hl : res.path = l.reverse := by rw [i1] at hl; exact hl
  have pr := pp.real
  rw [fwd_E i1, i3] at pr
  refine ⟨?_, ?_, ?_, ?_, ?_⟩
  · rw [hl, List.head?_reverse]; exact pp.last
  · rw [hl, List.getLast?_reverse]; exact pp.head
  · have := pp.cheap
    have e : st.Cheap = CheapListed st.env := by funext p s c; simp only [Cheap, CheapListed, LazyARA.nbr, i1, if_true]
    rw [e, i3] at this
    rw [hl]; exact this
  · intro ho
    rcases pr with ⟨k, h1, _, h3⟩ | ⟨⟨p, hp, hp'⟩, _⟩
    · refine ⟨k, by rw [hl]; exact h1, fun low => h3 (fwd_low i1 (by rw [i3]; exact low))⟩
    · rw [ho p hp] at hp'; cases hp'
  · rcases pr with ⟨k, h1, _⟩ | ⟨_, q, p, k, h1, h2, _, h4, lc, h5⟩
    · exact .inl ⟨k, by rw [hl]; exact h1⟩
    · refine .inr ⟨q.reverse, p, k, ?_, ?_, h4, lc, false, ?_⟩
      · rw [hl, h1, List.reverse_cons]
      · rw [List.getLast?_reverse]; exact h2
      · rw [← i3]
        simp only [LazyARA.nbr, i1, if_true] at h5
        exact h5

/-- **C74, first solution** With `return_first_solution` no pass is ended by the clock. -/
theorem first_not_cut (hQ : QueueOk Q wf) (hok : HistOk fwd env0 (ops ++ [.replan bs]))
    (hrun : (LazyARA.init env0 Q fwd D ie fe de fs).run ops = some st) (hid : ids ops (none, none) = (some a, some b))
    (hr : st.replan bs = .ok (st', res)) (h1 : (lastParams (ie, fe, de, fs) ops).2.2.2 = true) : ∀ p ∈ res.passes, p.out = false := by
  obtain ⟨⟨_, _, _, i4, _⟩, sp⟩ := replan_post hQ hok hrun hid
  rw [hr] at sp
  obtain ⟨_, x, sp⟩ := (sp : _ ∧ ∃ x, SearchPost st a b bs (x, res))
  refine sp.one ?_
  rw [← i4] at h1
  exact h1

/-- **C75, general form** If no pass was ended by the clock, the real cost of the path is at most `N / M` times that of every
path over existing edges, where inflated heuristic values (initial eps) decrease along existing edges by at most `N / M` times
the edge's cost. -/
theorem bound_general (hQ : QueueOk Q wf) (hok : HistOk true env0 (ops ++ [.replan bs]))
    (hrun : (LazyARA.init env0 Q true D ie fe de fs).run ops = some st) (hid : ids ops (none, none) = (some a, some b))
    (hr : st.replan bs = .ok (st', res)) (hbs : bs ≠ []) (hcut : ∀ p ∈ res.passes, p.out = false)
    (hlow : LazyLower (lastEnv env0 ops)) {e N M : Nat} (he : (lastParams (ie, fe, de, fs) ops).1 = e) (hMN : M ≤ N)
    (hh : HeurUpTo (lastEnv env0 ops) D e N M) (h0 : (lastEnv env0 ops).hGoal b = 0)
    (hs : e * (lastEnv env0 ops).hGoalPre a / D < INFINITECOST) :
    (res.found = true → ∃ k, RPath (Edge (lastEnv env0 ops)) res.path k ∧ ∀ c, RWalk (Edge (lastEnv env0 ops)) a b c → M * k ≤ N * c) ∧
    (res.found = false → res.path = [] ∧ ∀ c, RWalk (Edge (lastEnv env0 ops)) a b c → M * INFINITECOST ≤ N * c) := by
  obtain ⟨⟨i1, i2, i3, i4, i5⟩, sp⟩ := replan_post hQ hok hrun hid
  rw [hr] at sp
  obtain ⟨_, x, sp⟩ := (sp : _ ∧ ∃ x, SearchPost st a b bs (x, res))
  have hE := fwd_E i1
  rw [← i3] at hlow hh h0 hs ⊢
  rw [← i2] at hh hs
  have he : st.initEps = e := by rw [← i4] at he; exact he
  have low := fwd_low i1 hlow
  have ea := fwd_eps i1 hMN hh
  have hg : st.hOf b = 0 := by simp only [LazyARA.hOf, i1, if_true]; exact h0
  have hp : ARA.infl st.D st.initEps (st.hPre a) < INFINITECOST := by
    rw [he]
    simp only [hPre, i1, if_true]
    exact hs
  have ne := sp.anyPass hbs
  constructor
  · intro hf
    obtain ⟨l, y, hl, pp, bd, _⟩ := sp.found hf
    have hl : res.path = l.reverse := by rw [i1] at hl; exact hl
    rcases pp.real with ⟨k, h1, h2, _⟩ | ⟨⟨p, hp, hp'⟩, _⟩
    · refine ⟨k, by rw [hl, ← hE]; exact h1, ?_⟩
      intro c w
      have := bd ne hcut low hg hp ⟨N, M⟩ (by rw [he]; exact ea) c (by rw [hE]; exact w)
      exact Nat.le_trans (Nat.mul_le_mul_left _ h2) this
    · have := hcut p hp
      rw [this] at hp'; cases hp'
  · intro hf
    obtain ⟨h1, h2⟩ := sp.lost hf
    refine ⟨h1, ?_⟩
    intro c w
    exact h2 ne hcut low hg hp ⟨N, M⟩ (by rw [he]; exact ea) c (by rw [hE]; exact w)

theorem heurUpTo_of_consistent {env : LEnv} {gl e E : Nat} (hD : 0 < D) (h : Consistent env gl) (heE : e ≤ E * D) : HeurUpTo env D e E 1 := by
  intro s t c hm
  have h1 := h.2 s t c hm
  rw [Nat.one_mul, Nat.one_mul]
  have h2 : e * env.hGoal s ≤ e * env.hGoal t + (E * c) * D := by
    have := Nat.mul_le_mul_left e h1
    rw [Nat.mul_add] at this
    have h3 : e * c ≤ (E * c) * D := by
      have := Nat.mul_le_mul_right c heE
      rw [Nat.mul_right_comm] at this; exact this
    omega
  have h3 := Nat.div_le_div_right (c := D) h2
  rw [Nat.add_mul_div_right _ _ hD] at h3
  exact h3

/-- **C75** With lower bounds as unevaluated costs, a consistent heuristic and initial eps at most `E`: unless the clock ended a
pass, the real cost of the path is at most `E` times that of every path over existing edges, and if there is a path cheaper than
INFINITECOST / E one is found. -/
theorem bound (hQ : QueueOk Q wf) (hok : HistOk true env0 (ops ++ [.replan bs]))
    (hrun : (LazyARA.init env0 Q true D ie fe de fs).run ops = some st) (hid : ids ops (none, none) = (some a, some b))
    (hr : st.replan bs = .ok (st', res)) (hbs : bs ≠ []) (hcut : ∀ p ∈ res.passes, p.out = false)
    (hlow : LazyLower (lastEnv env0 ops)) {E : Nat} (hD : 0 < D) (hE1 : 1 ≤ E) (hE : (lastParams (ie, fe, de, fs) ops).1 ≤ E * D)
    (hh : Consistent (lastEnv env0 ops) b) (hs : (lastParams (ie, fe, de, fs) ops).1 * (lastEnv env0 ops).hGoalPre a / D < INFINITECOST)
    {c : Nat} (w : RWalk (Edge (lastEnv env0 ops)) a b c) (hc : E * c < INFINITECOST) :
    res.found = true ∧ ∃ k, RPath (Edge (lastEnv env0 ops)) res.path k ∧ k ≤ E * c := by
  obtain ⟨h1, h2⟩ := bound_general hQ hok hrun hid hr hbs hcut hlow rfl hE1 (heurUpTo_of_consistent hD hh hE) hh.1 hs
  cases hf : res.found with
  | true =>
    obtain ⟨k, p, hk⟩ := h1 hf
    have := hk c w
    rw [Nat.one_mul] at this
    exact ⟨rfl, k, p, this⟩
  | false =>
    have := (h2 hf).2 c w
    rw [Nat.one_mul] at this
    omega

/-- **C76** In an environment all of whose edges are listed with true costs, the reported eps is a bound whatever the time
limits: the path's real cost is at most `E` times that of every path, if the eps reported is at most `E` (consistent heuristic,
initial and final eps times the start's heuristic value below INFINITECOST). -/
theorem true_costs_bound (hQ : QueueOk Q wf) (hok : HistOk true env0 (ops ++ [.replan bs]))
    (hrun : (LazyARA.init env0 Q true D ie fe de fs).run ops = some st) (hid : ids ops (none, none) = (some a, some b))
    (hr : st.replan bs = .ok (st', res)) (hf : res.found = true)
    (hall : ∀ p s c f, (s, c, f) ∈ (lastEnv env0 ops).succs p → f = true)
    {e E : Nat} (hfe : res.finalEps = some e) (hD : 0 < D) (hE1 : 1 ≤ E) (hE : e ≤ E * D)
    (hh : Consistent (lastEnv env0 ops) b)
    (hs1 : (lastParams (ie, fe, de, fs) ops).1 * (lastEnv env0 ops).hGoalPre a / D < INFINITECOST)
    (hs2 : (lastParams (ie, fe, de, fs) ops).2.1 * (lastEnv env0 ops).hGoalPre a / D < INFINITECOST)
    {c : Nat} (w : RWalk (Edge (lastEnv env0 ops)) a b c) :
    ∃ k, RPath (Edge (lastEnv env0 ops)) res.path k ∧ k ≤ E * c := by
  obtain ⟨⟨i1, i2, i3, i4, i5⟩, sp⟩ := replan_post hQ hok hrun hid
  rw [hr] at sp
  obtain ⟨_, x, sp⟩ := (sp : _ ∧ ∃ x, SearchPost st a b bs (x, res))
  have hEe := fwd_E i1
  rw [← i3] at hall hh hs1 hs2 w ⊢
  rw [← i2] at hE hs1 hs2 hD
  rw [← i4] at hs1 hs2
  have hs1 : st.initEps * st.env.hGoalPre a / st.D < INFINITECOST := hs1
  have hs2 : st.finalEps * st.env.hGoalPre a / st.D < INFINITECOST := hs2
  have at' : AllTrue st := by
    intro p s c f hm
    simp only [LazyARA.nbr, i1, if_true] at hm
    exact hall p s c f hm
  have hg : st.hOf b = 0 := by simp only [LazyARA.hOf, i1, if_true]; exact hh.1
  have hp : ARA.infl st.D (max st.initEps st.finalEps) (st.hPre a) < INFINITECOST := by
    simp only [hPre, i1, if_true]
    show max st.initEps st.finalEps * _ / _ < _
    rcases Nat.le_total st.initEps st.finalEps with h | h
    · rw [Nat.max_eq_right h]; exact hs2
    · rw [Nat.max_eq_left h]; exact hs1
  obtain ⟨l, y, hl, pp, _, bd⟩ := sp.found hf
  have hl : res.path = l.reverse := by rw [i1] at hl; exact hl
  rcases pp.real with ⟨k, h1, h2, _⟩ | ⟨_, _, p, _, _, _, _, _, lc, h5⟩
  · refine ⟨k, by rw [hl, ← hEe]; exact h1, ?_⟩
    have := bd at' hg hp e hfe ⟨E, 1⟩ (fwd_eps i1 hE1 (heurUpTo_of_consistent hD hh hE)) c (by rw [hEe]; exact w)
    simp only [Nat.one_mul] at this
    omega
  · exact absurd (at' _ _ _ _ h5) (by simp)

/-- **C77** No pass expands a state twice, and none expands the goal. -/
theorem expands_once (hQ : QueueOk Q wf) (hok : HistOk fwd env0 (ops ++ [.replan bs]))
    (hrun : (LazyARA.init env0 Q fwd D ie fe de fs).run ops = some st) (hid : ids ops (none, none) = (some a, some b))
    (hr : st.replan bs = .ok (st', res)) : ∀ p ∈ res.passes, p.tr.Nodup ∧ b ∉ p.tr := by
  obtain ⟨_, sp⟩ := replan_post hQ hok hrun hid
  rw [hr] at sp
  obtain ⟨_, x, sp⟩ := (sp : _ ∧ ∃ x, SearchPost st a b bs (x, res))
  exact sp.passes

/-- **C78** The only exception is a full heap (in first-solution mode the model's budget may also be too small). -/
theorem exceptions (hQ : QueueOk Q wf) (hok : HistOk fwd env0 (ops ++ [.replan bs]))
    (hrun : (LazyARA.init env0 Q fwd D ie fe de fs).run ops = some st) {x : Err} (hr : st.replan bs = .error x) :
    x = .heap .full ∨ (x = .noTermination ∧ (lastParams (ie, fe, de, fs) ops).2.2.2 = true) := by
  have i := hist hQ hok.init hrun
  have e : (LazyARA.init env0 Q fwd D ie fe de fs).userIds = (none, none) := by unfold userIds; cases fwd <;> rfl
  rcases hid : ids ops (none, none) with ⟨_ | a, ub⟩
  · rw [replan_none (.inl (by rw [i.ids, e, hid]))] at hr; cases hr
  · rcases ub with _ | b
    · rw [replan_none (.inr (by rw [i.ids, e, hid]))] at hr; cases hr
    · obtain ⟨⟨_, _, _, i4, _⟩, sp⟩ := replan_post hQ hok hrun hid
      rw [hr] at sp
      rcases sp with h | ⟨h1, h2⟩
      · exact .inl h
      · refine .inr ⟨h1, ?_⟩
        rw [← i4]; exact h2

/-- **C79** After a replan call with start and goal both are forgotten: every further replan call fails at once, whatever the
calls in between, unless both are set again. -/
theorem ids_consumed (hQ : QueueOk Q wf) (hok : HistOk fwd env0 ops)
    (hrun : (LazyARA.init env0 Q fwd D ie fe de fs).run ops = some st)
    (hno : (ids ops (none, none)).1 = none ∨ (ids ops (none, none)).2 = none) :
    st.replan bs = .ok (st, ⟨false, [], 0, none, []⟩) := by
  have i := hist hQ hok hrun
  have e : (LazyARA.init env0 Q fwd D ie fe de fs).userIds = (none, none) := by unfold userIds; cases fwd <;> rfl
  refine replan_none ?_
  rw [i.ids, e]
  exact hno

/-- **C80** With `forward_search = false` and an environment whose start heuristic is 0 at the goal, a path returned is not one
from the start to the goal: read in the order returned, it leads from the goal to the start over existing edges
(GetLazyPreds), up to the edge that leaves the goal if the clock ended a pass. -/
theorem backward_path_reversed (hQ : QueueOk Q wf) (hok : HistOk false env0 (ops ++ [.replan bs]))
    (hrun : (LazyARA.init env0 Q false D ie fe de fs).run ops = some st) (hid : ids ops (none, none) = (some a, some b))
    (hr : st.replan bs = .ok (st', res)) (hf : res.found = true) (hcut : ∀ p ∈ res.passes, p.out = false) :
    res.path.head? = some b ∧ res.path.getLast? = some a ∧ ∃ k, RPath (EdgeBack (lastEnv env0 ops)) res.path k := by
  obtain ⟨⟨i1, i2, i3, i4, i5⟩, sp⟩ := replan_post hQ hok hrun hid
  rw [hr] at sp
  obtain ⟨_, x, sp⟩ := (sp : _ ∧ ∃ x, SearchPost st a b bs (x, res))
  obtain ⟨l, y, hl, pp, _⟩ := sp.found hf
  have hl : res.path = l := by rw [i1] at hl; exact hl
  refine ⟨by rw [hl]; exact pp.head, by rw [hl]; exact pp.last, ?_⟩
  rcases pp.real with ⟨k, h1, _, h3⟩ | ⟨⟨p, hp, hp'⟩, _⟩
  · rw [bwd_E i1, i3] at h1
    have := rpath_flip h1
    rw [List.reverse_reverse] at this
    exact ⟨k, by rw [hl]; exact this⟩
  · have := hcut p hp
    rw [this] at hp'; cases hp'

end

end Sbpl.LazyProps
