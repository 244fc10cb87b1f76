import Verif.Proofs.ARAApi
/-!
# Properties of `ARAPlanner` over arbitrary histories of interface calls (C19–C23, C26–C28)

In all theorems: a planner is constructed on environment `env0` (searching forward or backward, any eps
parameters), an arbitrary list `ops` of interface calls is made, and then `replan` is called with an
arbitrary time limit (`bs`: how many loop checks the clock allows in each pass).
-/

namespace Sbpl.ARAProps
open Sbpl GraphSpec PlannerSpec ARA

section
variable {env0 : PEnv} {fwd : Bool} {D ie fe de : Nat} {fs : Bool} {ops : List Op} {st st' : ARA} {bs : List Nat}
  {res : Result} {a b : Nat}

/-- everything needed from the history -/
theorem hist (he : EnvOk env0) (hok : ∀ op ∈ ops, OpOk op) (hrun : (init env0 fwd D ie fe de fs).run ops = some st)
    (ha : lastStart ops = some a) (hb : lastGoal ops = some b) :
    Good st ∧ st.fwd = fwd ∧ st.D = D ∧ st.env = lastEnv env0 ops ∧
      ∃ s0 gl, st.start = some s0 ∧ st.goal = some gl ∧ envStart fwd s0 gl = a ∧ envGoal fwd s0 gl = b := by
  have g0 : Good (init env0 fwd D ie fe de fs) := ⟨init_api .., he⟩
  have g := run_good ops g0 hok hrun
  have t := run_tracks ops g0 hok hrun
  refine ⟨g, t.fwd, t.D, t.env, ?_⟩
  have h1 := t.start
  have h2 := t.goal
  have f : st.fwd = fwd := t.fwd
  rw [ha] at h1; rw [hb] at h2
  simp only [planStart, planGoal, f, Option.some_or] at h1 h2
  by_cases q : fwd = true
  · rw [if_pos q] at h1 h2
    exact ⟨a, b, h1, h2, by simp [envStart, q], by simp [envGoal, q]⟩
  · rw [if_neg q] at h1 h2
    exact ⟨b, a, h2, h1, by simp [envStart, q], by simp [envGoal, q]⟩

/-- **C19** Whenever `replan` reports success, the returned states form a path from the start to the goal
of the current environment whose cost is at most the reported cost, which is below INFINITECOST.
For every environment with positive costs, every heuristic, every history and every time limit. -/
theorem replan_path_sound (he : EnvOk env0) (hok : ∀ op ∈ ops, OpOk op)
    (hrun : (init env0 fwd D ie fe de fs).run ops = some st)
    (ha : lastStart ops = some a) (hb : lastGoal ops = some b) (hbs : bs ≠ [])
    (hr : st.replan bs = .ok (st', res)) (hf : res.found = true) :
    FromTo res.path a b ∧ res.path.Nodup ∧
      ∃ n, PathCost ((lastEnv env0 ops).succs b) res.path n ∧ n ≤ res.cost ∧ res.cost < INFINITECOST := by
  obtain ⟨g, hf', hD, hE, s0, gl, h0, hg, e1, e2⟩ := hist he hok hrun ha hb
  have sp := replan_spec bs g.api g.env h0 hg (.inl hbs)
  rw [hr] at sp
  have p := sp.path hf
  rw [hf', hE, e1, e2] at p
  exact p

/-- **C20, general form** Suppose the inflated heuristic decreases along every edge by at most `N / M` times the
cost (`N / M ≥ 1`; see the corollaries for when this holds).  When `replan` reports the suboptimality bound
`e / D` (get_final_epsilon / get_solution_eps), the goal is found if it can be reached at all and the reported
cost is at most `N / M` times the cost of every path. -/
theorem replan_bound_general (he : EnvOk env0) (hok : ∀ op ∈ ops, OpOk op)
    (hrun : (init env0 fwd D ie fe de fs).run ops = some st)
    (ha : lastStart ops = some a) (hb : lastGoal ops = some b) (hbs : bs ≠ [])
    (hr : st.replan bs = .ok (st', res)) {e N M c : Nat} (hfe : res.finalEps = some e)
    (hh : HeurUpTo (lastEnv env0 ops) fwd D e N M) (hMN : M ≤ N)
    (hp : fwd = false → PredsOk (lastEnv env0 ops) a)
    (w : Walk ((lastEnv env0 ops).succs b) a b c) :
    res.found = true ∧ M * res.cost ≤ N * c := by
  obtain ⟨g, hf', hD, hEn, s0, gl, h0, hg, e1, e2⟩ := hist he hok hrun ha hb
  have sp := replan_spec bs g.api g.env h0 hg (.inl hbs)
  rw [hr] at sp
  have w' : Walk st.base s0 gl c := by
    apply walk_base g.env h0 hg (by rw [hf', hEn, e1]; exact hp)
    rw [hf', hEn, e1, e2]; exact w
  have u := upTo_base (gl := gl) g.env (D := D) (e := e) (N := N) (M := M) (by rw [hEn, hf']; exact hh) h0
  exact sp.sat u.1 e hfe ⟨N, M⟩ c hMN (by rw [hD]; exact u.2) w'

/-- **C20** With a consistent heuristic, when `replan` reports the suboptimality bound `e / D`
(get_final_epsilon / get_solution_eps), the goal is found if it can be reached at all and the reported
cost is at most `E` times the cost of every path, for every integer `E ≥ e / D`, `E ≥ 1`.
In particular for integral eps (e.g. 1) the bound is exact. -/
theorem replan_bound (he : EnvOk env0) (hok : ∀ op ∈ ops, OpOk op)
    (hrun : (init env0 fwd D ie fe de fs).run ops = some st)
    (ha : lastStart ops = some a) (hb : lastGoal ops = some b) (hbs : bs ≠ [])
    (hr : st.replan bs = .ok (st', res)) (hh : HeurOk (lastEnv env0 ops) fwd)
    {e E c : Nat} (hfe : res.finalEps = some e) (hE : 1 ≤ E) (heE : e ≤ E * D)
    (hp : fwd = false → PredsOk (lastEnv env0 ops) a)
    (w : Walk ((lastEnv env0 ops).succs b) a b c) :
    res.found = true ∧ res.cost ≤ E * c := by
  have := replan_bound_general he hok hrun ha hb hbs hr hfe (heurUpTo_of_heurOk hh heE) hE hp w
  rwa [Nat.one_mul] at this

/-- **C20, fractional eps** With a consistent heuristic, eps = e / D ≥ 1 and edge costs of at least `m`, the
reported cost is at most (eps + 1 / m) times the cost of every path. -/
theorem replan_bound_fractional (he : EnvOk env0) (hok : ∀ op ∈ ops, OpOk op)
    (hrun : (init env0 fwd D ie fe de fs).run ops = some st)
    (ha : lastStart ops = some a) (hb : lastGoal ops = some b) (hbs : bs ≠ [])
    (hr : st.replan bs = .ok (st', res)) (hh : HeurOk (lastEnv env0 ops) fwd)
    {e m c : Nat} (hfe : res.finalEps = some e) (hD : 0 < D) (he1 : D ≤ e) (hm : CostsAtLeast (lastEnv env0 ops) m)
    (hp : fwd = false → PredsOk (lastEnv env0 ops) a)
    (w : Walk ((lastEnv env0 ops).succs b) a b c) :
    res.found = true ∧ D * m * res.cost ≤ (e * m + D) * c :=
  replan_bound_general he hok hrun ha hb hbs hr hfe (heurUpTo_of_min hh hD hm)
    (Nat.le_trans (Nat.mul_le_mul_right m he1) (Nat.le_add_right _ _)) hp w

/-- **C22** If `replan` reports failure although the clock interrupted no pass, then every path from start to
goal costs at least INFINITECOST / E, where `E` bounds the eps values requested (consistent heuristic). -/
theorem replan_failure_complete (he : EnvOk env0) (hok : ∀ op ∈ ops, OpOk op)
    (hrun : (init env0 fwd D ie fe de fs).run ops = some st)
    (ha : lastStart ops = some a) (hb : lastGoal ops = some b) (hbs : bs ≠ [])
    (hr : st.replan bs = .ok (st', res)) (hh : HeurOk (lastEnv env0 ops) fwd)
    {E c : Nat} (hE : 1 ≤ E) (hreq : EpsReq E D ops) (hie : ie ≤ E * D) (hfe : fe ≤ E * D)
    (hnt : NoTimeout bs res.traces) (hf : res.found = false)
    (hp : fwd = false → PredsOk (lastEnv env0 ops) a)
    (w : Walk ((lastEnv env0 ops).succs b) a b c) : INFINITECOST ≤ E * c := by
  obtain ⟨g, hf', hD, hEn, s0, gl, h0, hg, e1, e2⟩ := hist he hok hrun ha hb
  have sp := replan_spec bs g.api g.env h0 hg (.inl hbs)
  rw [hr] at sp
  have w' : Walk st.base s0 gl c := by
    apply walk_base g.env h0 hg (by rw [hf', hEn, e1]; exact hp)
    rw [hf', hEn, e1, e2]; exact w
  have eb : EpsBd st (E * D) := run_epsBd ops ⟨init_api .., he⟩ hok hrun hreq ⟨hie, hie, hfe⟩
  have u : ∀ e, e ≤ E * D → st.heur gl gl = 0 ∧ UpTo st.base (st.heur gl) D e E 1 := fun e h =>
    upTo_base g.env (by rw [hEn, hf']; exact heurUpTo_of_heurOk hh h) h0
  have := sp.nopath (u 0 (Nat.zero_le _)).1 hnt hbs hf ⟨E, 1⟩ (E * D) c hE (fun e h => by rw [hD]; exact (u e h).2)
    eb.eps eb.ini eb.fin w'
  rwa [Nat.one_mul] at this

/-- **C23** No pass (ImprovePath call) expands a state twice, and none expands the search goal; whatever the
heuristic. -/
theorem replan_expands_once (he : EnvOk env0) (hok : ∀ op ∈ ops, OpOk op)
    (hrun : (init env0 fwd D ie fe de fs).run ops = some st)
    (ha : lastStart ops = some a) (hb : lastGoal ops = some b) (hbs : bs ≠ [])
    (hr : st.replan bs = .ok (st', res)) :
    ∀ tr ∈ res.traces, tr.Nodup ∧ (if fwd then b else a) ∉ tr := by
  obtain ⟨g, hf', hD, hEn, s0, gl, h0, hg, e1, e2⟩ := hist he hok hrun ha hb
  have sp := replan_spec bs g.api g.env h0 hg (.inl hbs)
  rw [hr] at sp
  have : (if fwd then b else a) = gl := by
    rw [← e1, ← e2]; unfold envStart envGoal; split <;> rfl
  rw [this]
  exact fun tr ht => ⟨sp.nodup tr ht, sp.noGoal tr ht⟩

/-- **C26** The only exceptions `replan` can raise are those of a full OPEN heap or a full INCONS list: no
history makes it insert twice, remove an absent state, miss a predecessor or find non-decreasing values
along the extracted path. -/
theorem replan_exceptions (he : EnvOk env0) (hok : ∀ op ∈ ops, OpOk op)
    (hrun : (init env0 fwd D ie fe de fs).run ops = some st)
    (ha : lastStart ops = some a) (hb : lastGoal ops = some b) (hbs : bs ≠ []) {x : PErr}
    (hr : st.replan bs = .error x) : x = .heap .full ∨ x = .list .full := by
  obtain ⟨g, hf', hD, hEn, s0, gl, h0, hg, e1, e2⟩ := hist he hok hrun ha hb
  have sp := replan_spec bs g.api g.env h0 hg (.inl hbs)
  rw [hr] at sp
  exact sp

theorem base_searchGraph (f : st.fwd = fwd) {s0 gl : Nat} (h0 : st.start = some s0) (e2 : envGoal fwd s0 gl = b) :
    st.base = searchGraph st.env fwd b := by
  funext s
  unfold ARA.base searchGraph
  by_cases q : fwd = true
  · rw [f, if_pos q, if_pos q]
  · rw [f, if_neg q, if_neg q, h0]
    have : s0 = b := by rw [← e2]; simp [envGoal, q]
    rw [← this]; rfl

/-- **C27a** Every state expanded is reachable, so if the states reachable in the search graph are among the
finitely many `R`, a pass that is allowed more than `R.length` loop checks is never cut short. -/
theorem replan_terminates (he : EnvOk env0) (hok : ∀ op ∈ ops, OpOk op)
    (hrun : (init env0 fwd D ie fe de fs).run ops = some st)
    (ha : lastStart ops = some a) (hb : lastGoal ops = some b) (hbs : bs ≠ [])
    (hr : st.replan bs = .ok (st', res)) {R : List Nat}
    (hR : ∀ s c, Walk (searchGraph (lastEnv env0 ops) fwd b) (if fwd then a else b) s c → s ∈ R)
    (hlong : ∀ n ∈ bs, R.length < n) : NoTimeout bs res.traces := by
  obtain ⟨g, hf', hD, hEn, s0, gl, h0, hg, e1, e2⟩ := hist he hok hrun ha hb
  have sp := replan_spec bs g.api g.env h0 hg (.inl hbs)
  rw [hr] at sp
  refine ⟨R.length, ?_, hlong⟩
  intro tr ht
  refine nodup_length_le (sp.nodup tr ht) ?_
  intro s hs
  obtain ⟨c, w⟩ := sp.reach tr ht s hs
  rw [base_searchGraph hf' h0 e2, hEn] at w
  have : (if fwd then a else b) = s0 := by
    rw [← e1, ← e2]; unfold envStart envGoal; split <;> rfl
  exact hR s c (by rw [this]; exact w)

/-- **C27b** If no pass is cut short and enough passes are allowed, `replan` ends with the requested final
eps satisfied, or reports that there is no path. -/
theorem replan_reaches_final_eps (he : EnvOk env0) (hok : ∀ op ∈ ops, OpOk op)
    (hrun : (init env0 fwd D ie fe de fs).run ops = some st)
    (ha : lastStart ops = some a) (hb : lastGoal ops = some b) (hbs : bs ≠ [])
    (hr : st.replan bs = .ok (st', res)) (hnt : NoTimeout bs res.traces)
    (hfirst : st.first = false) (hdec : 1 ≤ st.decEps)
    {M : Nat} (h1 : st.eps ≤ M + st.finalEps) (h2 : st.initEps ≤ M + st.finalEps) (h3 : M + 1 ≤ bs.length) :
    (∃ e, res.finalEps = some e ∧ e ≤ st.finalEps) ∨ res.found = false := by
  obtain ⟨g, hf', hD, hEn, s0, gl, h0, hg, e1, e2⟩ := hist he hok hrun ha hb
  have sp := replan_spec bs g.api g.env h0 hg (.inl hbs)
  rw [hr] at sp
  exact sp.live hnt hfirst hdec M h1 h2 h3

end

/-! ## Concrete environments: the hypotheses are met, and the real-valued bound fails -/

/-- environment given by a table of edges (from, to, cost) with an absorbing goal -/
def tableEnv (es : List (Nat × Nat × Nat)) (hg hs : Nat → Nat → Nat) : PEnv where
  succs gl s := if s = gl then [] else (es.filter (fun e => e.1 == s)).map (fun e => (e.2.1, e.2.2))
  preds _ t := (es.filter (fun e => e.2.1 == t)).map (fun e => (e.1, e.2.2))
  hGoal := hg
  hStart := hs

theorem mem_tableSucc {es : List (Nat × Nat × Nat)} {s t c : Nat} :
    (t, c) ∈ (es.filter (fun e => e.1 == s)).map (fun e => (e.2.1, e.2.2)) ↔ (s, t, c) ∈ es := by
  simp only [List.mem_map, List.mem_filter, beq_iff_eq, Prod.mk.injEq, Prod.exists]
  constructor
  · rintro ⟨a, b, d, ⟨h, rfl⟩, rfl, rfl⟩; exact h
  · intro h; exact ⟨s, t, c, ⟨h, rfl⟩, rfl, rfl⟩

theorem mem_tablePred {es : List (Nat × Nat × Nat)} {s t c : Nat} :
    (s, c) ∈ (es.filter (fun e => e.2.1 == t)).map (fun e => (e.1, e.2.2)) ↔ (s, t, c) ∈ es := by
  simp only [List.mem_map, List.mem_filter, beq_iff_eq, Prod.mk.injEq, Prod.exists]
  constructor
  · rintro ⟨a, b, d, ⟨h, rfl⟩, rfl, rfl⟩; exact h
  · intro h; exact ⟨s, t, c, ⟨h, rfl⟩, rfl, rfl⟩

theorem tableEnv_ok (es : List (Nat × Nat × Nat)) (hg hs : Nat → Nat → Nat) (pos : ∀ e ∈ es, 1 ≤ e.2.2) :
    EnvOk (tableEnv es hg hs) := by
  refine ⟨?_, ?_, ?_, ?_, ?_⟩
  · intro gl gl' s h1 h2; simp [tableEnv, h1, h2]
  · intro gl s e h; simp [tableEnv] at h
  · intro gl s t c h
    simp only [tableEnv] at h
    split at h
    · cases h
    · exact pos _ (mem_tableSucc.mp h)
  · intro gl s t c h; exact pos _ (mem_tablePred.mp h)
  · intro gl s t c ne h
    simp only [tableEnv, if_neg ne]
    exact mem_tableSucc.mpr (mem_tablePred.mp h)

theorem tableEnv_preds (es : List (Nat × Nat × Nat)) (hg hs : Nat → Nat → Nat) (a : Nat) :
    PredsOk (tableEnv es hg hs) a := by
  intro gl s t c n _ h
  simp only [tableEnv] at h
  split at h
  · cases h
  · exact mem_tablePred.mpr (mem_tableSucc.mp h)

/-- Three gadgets: `x_{i-1} → x_i` directly at cost 3 or through `y_i` at cost 1 + 1 (`x_i = i`,
`y_i = 3 + i`); then 1 to state 8 and 4 to the goal 7.  Besides, an edge of cost 15 from 0 to 7. -/
def gadgetEdges : List (Nat × Nat × Nat) :=
  [(0, 7, 15), (0, 1, 3), (0, 4, 1), (4, 1, 1), (1, 5, 1), (1, 2, 3), (5, 2, 1), (2, 6, 1), (2, 3, 3), (6, 3, 1),
   (3, 8, 1), (8, 7, 4)]

def gadgetH (gl s : Nat) : Nat :=
  if gl = 7 then (if s ≤ 3 then 3 else if s = 7 then 0 else if s ≤ 8 then 4 else 0) else 0

def gadgetEnv : PEnv := tableEnv gadgetEdges gadgetH (fun _ _ => 0)

theorem gadgetEnv_ok : EnvOk gadgetEnv := tableEnv_ok _ _ _ (by decide)

theorem gadget_heurOk : HeurOk gadgetEnv true := by
  show ∀ gl, Consistent _ _ _
  intro gl
  refine ⟨?_, ?_⟩
  · show gadgetH gl gl = 0
    unfold gadgetH
    split
    next h => subst h; rfl
    · rfl
  · intro s t c h
    show gadgetH gl s ≤ gadgetH gl t + c
    simp only [gadgetEnv, tableEnv] at h
    split at h
    · cases h
    · have hm := mem_tableSucc.mp h
      have key : ∀ e ∈ gadgetEdges, gadgetH 7 e.1 ≤ gadgetH 7 e.2.1 + e.2.2 := by decide
      by_cases q : gl = 7
      · subst q; exact key _ hm
      · simp [gadgetH, q]

/-- plan from 0 to 7 -/
def planOps : List Op := [.setGoal 7, .setStart 0]

theorem planOps_ok : ∀ op ∈ planOps, OpOk op := by
  intro op h
  simp only [planOps, List.mem_cons, List.not_mem_nil, or_false] at h
  rcases h with rfl | rfl <;> trivial

/-- construct, make the calls `ops`, call `replan` -/
def planRun (env : PEnv) (fwd : Bool) (D ie fe de : Nat) (fs : Bool) (ops : List Op) (bs : List Nat) :
    Option Result :=
  match (ARA.init env fwd D ie fe de fs).run ops with
  | none => none
  | some st => match st.replan bs with
    | .ok (_, r) => some r
    | .error _ => none

theorem planRun_some {env : PEnv} {fwd : Bool} {D ie fe de : Nat} {fs : Bool} {ops : List Op} {bs : List Nat}
    {r : Result} (h : planRun env fwd D ie fe de fs ops bs = some r) :
    ∃ st st', (ARA.init env fwd D ie fe de fs).run ops = some st ∧ st.replan bs = .ok (st', r) := by
  unfold planRun at h
  split at h
  · cases h
  · rename_i st h1
    split at h
    · rename_i st' r' h2
      cases h
      exact ⟨st, st', h1, h2⟩
    · cases h

/-- eps = 1.25 = 5/4, first solution only -/
theorem gadgetRun_eq : planRun gadgetEnv true 4 5 5 1 true planOps [100] =
    some ⟨true, [0, 7], 15, some 5, [[0, 1, 4, 2, 5, 3, 6]]⟩ := by
  decide +kernel

/-- **C21, refuted.** The eps reported by the code is not a true bound: there is a well-formed environment
with a consistent heuristic on which `replan` reports eps = 5/4 and returns a path of cost 15 (also the
reported cost) although a path of cost 11 exists (15 > 1.25 * 11). -/
theorem reported_eps_not_a_bound :
    ∃ (env : PEnv) (ops : List Op) (bs : List Nat) (D e : Nat) (st st' : ARA) (res : Result),
      EnvOk env ∧ HeurOk env true ∧ (∀ op ∈ ops, OpOk op) ∧ bs ≠ [] ∧ D ≤ e ∧
      (ARA.init env true D e e 1 true).run ops = some st ∧ lastStart ops = some 0 ∧ lastGoal ops = some 7 ∧
      st.replan bs = .ok (st', res) ∧ res.found = true ∧ res.finalEps = some e ∧
      PathCost (env.succs 7) res.path res.cost ∧
      ∃ c, Walk (env.succs 7) 0 7 c ∧ res.cost * D > e * c := by
  obtain ⟨st, st', h1, h2⟩ := planRun_some gadgetRun_eq
  refine ⟨gadgetEnv, planOps, [100], 4, 5, st, st', _, gadgetEnv_ok, gadget_heurOk, planOps_ok, by simp, by simp, h1,
    rfl, rfl, h2, rfl, rfl, ?_, 11, ?_, by decide⟩
  · exact .cons (c := 15) (n := 0) (by decide) (.single 7)
  · have w0 : Walk (gadgetEnv.succs 7) 0 0 0 := .nil
    have w1 := w0.snoc (t := 4) (c := 1) (by decide)
    have w2 := w1.snoc (t := 1) (c := 1) (by decide)
    have w3 := w2.snoc (t := 5) (c := 1) (by decide)
    have w4 := w3.snoc (t := 2) (c := 1) (by decide)
    have w5 := w4.snoc (t := 6) (c := 1) (by decide)
    have w6 := w5.snoc (t := 3) (c := 1) (by decide)
    have w7 := w6.snoc (t := 8) (c := 1) (by decide)
    exact w7.snoc (t := 7) (c := 4) (by decide)

/-! ### What happens outside the hypotheses -/

/-- outcome of a run that ends with an exception -/
def planErr (env : PEnv) (fwd : Bool) (D ie fe de : Nat) (fs : Bool) (ops : List Op) (bs : List Nat) : Option PErr :=
  match (ARA.init env fwd D ie fe de fs).run ops with
  | none => none
  | some st => match st.replan bs with
    | .ok _ => none
    | .error x => some x

theorem planErr_some {env : PEnv} {fwd : Bool} {D ie fe de : Nat} {fs : Bool} {ops : List Op} {bs : List Nat}
    {x : PErr} (h : planErr env fwd D ie fe de fs ops bs = some x) :
    ∃ st, (ARA.init env fwd D ie fe de fs).run ops = some st ∧ st.replan bs = .error x := by
  unfold planErr at h
  split at h
  · cases h
  · rename_i st h1
    split at h
    · cases h
    · rename_i x' h2
      cases h
      exact ⟨st, h1, h2⟩

def zeroEnv : PEnv := tableEnv [(0, 1, 0)] (fun _ _ => 0) (fun _ _ => 0)

/-- **C28, refuted** Zero-cost edges are legal inputs of the interface (costs are non-negative integers), and
a goal reached over one makes `replan` raise "g-values are non-decreasing" instead of returning the path. -/
theorem zero_cost_edge_raises :
    Walk (zeroEnv.succs 1) 0 1 0 ∧ HeurOk zeroEnv true ∧
    ∃ st, (init zeroEnv true 1 1 1 1 true).run [.setGoal 1, .setStart 0] = some st ∧
      st.replan [9] = .error .nonDecreasing := by
  refine ⟨Walk.snoc (b := 0) (n := 0) (c := 0) .nil (by decide), ?_, ?_⟩
  · show ∀ gl, Consistent _ _ _
    exact fun gl => ⟨rfl, fun _ _ _ _ => Nat.zero_le _⟩
  · exact planErr_some (by decide +kernel : planErr zeroEnv true 1 1 1 1 true [.setGoal 1, .setStart 0] [9] = some .nonDecreasing)

def staleEnv : PEnv := tableEnv [(0, 1, 1), (0, 3, 1), (1, 2, 1)] (fun _ _ => 0) (fun _ _ => 0)
def staleOps : List Op :=
  [.setGoal 2, .setStart 0, .replan [9], .setStart 1, .replan [9], .setGoal 3]

/-- **C29, refuted** "A replan whose time is already over returns no solution or a valid one": after moving
the start and then setting a goal seen only in an earlier search, `replan` with no time for a single pass
follows the stale pointers of the earlier search and raises "bestpred is NULL". -/
theorem expired_replan_raises :
    EnvOk staleEnv ∧ HeurOk staleEnv true ∧ (∀ op ∈ staleOps, OpOk op) ∧
    ∃ st, (init staleEnv true 1 1 1 1 true).run staleOps = some st ∧ st.replan [] = .error .predNull := by
  refine ⟨tableEnv_ok _ _ _ (by decide), ?_, ?_, ?_⟩
  · show ∀ gl, Consistent _ _ _
    exact fun gl => ⟨rfl, fun _ _ _ _ => Nat.zero_le _⟩
  · intro op h
    simp only [staleOps, List.mem_cons, List.not_mem_nil, or_false] at h
    rcases h with rfl | rfl | rfl | rfl | rfl | rfl <;> simp [OpOk]
  · exact planErr_some (by decide +kernel : planErr staleEnv true 1 1 1 1 true staleOps [] = some .predNull)

/-! ### Non-vacuity: runs meeting the hypotheses of the theorems above -/

def smallEdges : List (Nat × Nat × Nat) := [(0, 2, 3), (0, 1, 1), (1, 2, 1), (3, 0, 1)]
def smallH (gl s : Nat) : Nat := if gl = 2 ∧ s = 1 then 1 else 0
def smallEnv : PEnv := tableEnv smallEdges smallH (fun _ _ => 0)
def smallOps : List Op := [.setGoal 2, .setStart 0]

theorem smallEnv_ok : EnvOk smallEnv := tableEnv_ok _ _ _ (by decide)

theorem small_heurOk : HeurOk smallEnv true := by
  show ∀ gl, Consistent _ _ _
  intro gl
  refine ⟨?_, ?_⟩
  · show smallH gl gl = 0
    unfold smallH
    split
    next h => omega
    · rfl
  · intro s t c h
    show smallH gl s ≤ smallH gl t + c
    simp only [smallEnv, tableEnv] at h
    split at h
    · cases h
    · have hm := mem_tableSucc.mp h
      have key : ∀ e ∈ smallEdges, smallH 2 e.1 ≤ smallH 2 e.2.1 + e.2.2 := by decide
      by_cases q : gl = 2
      · subst q; exact key _ hm
      · simp [smallH, q]

theorem smallOps_ok : ∀ op ∈ smallOps, OpOk op := by
  intro op h
  simp only [smallOps, List.mem_cons, List.not_mem_nil, or_false] at h
  rcases h with rfl | rfl <;> trivial

/-- Two passes (eps 3, then 1): the hypotheses of C19, C20, C23 and of both C27 theorems hold, and the
result is the optimum. -/
example : ∃ st st' res,
    EnvOk smallEnv ∧ HeurOk (lastEnv smallEnv smallOps) true ∧ (∀ op ∈ smallOps, OpOk op) ∧
    (init smallEnv true 1 3 1 2 false).run smallOps = some st ∧ lastStart smallOps = some 0 ∧
    lastGoal smallOps = some 2 ∧ st.replan [9, 9, 9] = .ok (st', res) ∧ NoTimeout [9, 9, 9] res.traces ∧
    res.found = true ∧ res.path = [0, 1, 2] ∧ res.cost = 2 ∧ res.finalEps = some 1 ∧ res.traces = [[0], [1]] := by
  have e : planRun smallEnv true 1 3 1 2 false smallOps [9, 9, 9] = some ⟨true, [0, 1, 2], 2, some 1, [[0], [1]]⟩ := by
    decide +kernel
  obtain ⟨st, st', h1, h2⟩ := planRun_some e
  exact ⟨st, st', _, smallEnv_ok, small_heurOk, smallOps_ok, h1, rfl, rfl, h2, ⟨1, by decide, by decide⟩, rfl, rfl, rfl,
    rfl, rfl⟩

/-- A backward search (heuristic 0). -/
example : ∃ st st' res,
    EnvOk smallEnv ∧ HeurOk (lastEnv smallEnv smallOps) false ∧ (∀ op ∈ smallOps, OpOk op) ∧
    (init smallEnv false 1 3 1 2 false).run smallOps = some st ∧ lastStart smallOps = some 0 ∧
    lastGoal smallOps = some 2 ∧ st.replan [9, 9] = .ok (st', res) ∧
    res.found = true ∧ res.path = [0, 1, 2] ∧ res.cost = 2 := by
  have e : planRun smallEnv false 1 3 1 2 false smallOps [9, 9] = some ⟨true, [0, 1, 2], 2, some 1, [[2, 1], []]⟩ := by
    decide +kernel
  obtain ⟨st, st', h1, h2⟩ := planRun_some e
  refine ⟨st, st', _, smallEnv_ok, ?_, smallOps_ok, h1, rfl, rfl, h2, rfl, rfl, rfl⟩
  show ∀ gl s, Consistent _ _ _
  intro gl s
  exact ⟨rfl, fun _ _ _ _ => Nat.zero_le _⟩

/-- Failure without a timeout (C22): start 2 cannot reach goal 3. -/
example : ∃ st st' res,
    (init smallEnv true 1 3 1 2 false).run [.setGoal 3, .setStart 2] = some st ∧
    st.replan [9, 9] = .ok (st', res) ∧ NoTimeout [9, 9] res.traces ∧ res.found = false := by
  have e : planRun smallEnv true 1 3 1 2 false [.setGoal 3, .setStart 2] [9, 9] = some ⟨false, [], 1000000000, none, [[2]]⟩ := by
    decide +kernel
  obtain ⟨st, st', h1, h2⟩ := planRun_some e
  exact ⟨st, st', _, h1, h2, ⟨1, by decide, by decide⟩, rfl⟩

/-- A history with replanning after a change of costs. -/
example : ∃ st st' res,
    (init smallEnv true 1 3 1 2 false).run
      [.setGoal 2, .setStart 0, .replan [9], .costsChanged (tableEnv [(0, 2, 1)] (fun _ _ => 0) (fun _ _ => 0))] = some st ∧
    st.replan [9, 9] = .ok (st', res) ∧ res.path = [0, 2] ∧ res.cost = 1 ∧ res.finalEps = some 1 := by
  have e : planRun smallEnv true 1 3 1 2 false
      [.setGoal 2, .setStart 0, .replan [9], .costsChanged (tableEnv [(0, 2, 1)] (fun _ _ => 0) (fun _ _ => 0))] [9, 9] =
      some ⟨true, [0, 2], 1, some 1, [[0], []]⟩ := by
    decide +kernel
  obtain ⟨st, st', h1, h2⟩ := planRun_some e
  exact ⟨st, st', _, h1, h2, rfl, rfl, rfl⟩

end Sbpl.ARAProps
