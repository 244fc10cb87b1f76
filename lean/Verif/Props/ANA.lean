import Verif.Proofs.ANAApi
import Verif.Props.ARA
/-!
# Properties of `anaPlanner` over histories of interface calls (C86–C93)

A planner is constructed on environment `env0` (searching forward or backward), a list `ops` of interface calls is
made (`Ready`: no `replan` is called when the state searched towards changed without a restart, and a restarted
search is given time for one check of its main loop), and then `replan` is called; `bs` says how many loop checks
the clock allows in each pass.  That the `Ready` restrictions are needed is shown at the end of the file.
-/

namespace Sbpl.ANAProps
open GraphSpec ANA ANASpec
open PlannerSpec (EnvOk PredsOk HeurOk searchGraph)
open ARA (envGoal envStart)

section
variable {env0 : PEnv} {fwd : Bool} {ops : List Op} {st st' st'' : ANA} {bs bs' : List Nat} {res res' : Result} {a b : Nat}

/-- everything needed from the history -/
theorem hist (he : EnvOk env0) (hok : ∀ op ∈ ops, OpOk op) (hrd : Ready fwd bs .new ops)
    (hrun : (init env0 fwd).run ops = some st) (ha : lastStart ops = some a) (hb : lastGoal ops = some b) :
    Data st ∧ EnvOk st.env ∧ st.fwd = fwd ∧ st.env = lastEnv env0 ops ∧ st.first = lastMode false ops ∧
      ∃ s0 gl, st.start = some s0 ∧ st.goal = some gl ∧ envStart fwd s0 gl = a ∧ envGoal fwd s0 gl = b ∧
        (st.bReinit = false → SInv st s0 gl ∧ Swept st gl) ∧ (st.bReinit = true → bs ≠ []) := by
  obtain ⟨g, hr, hm, hE⟩ := run_api ops (init_api he fwd) hok hrd hrun
  have h1 := g.start
  have h2 := g.goal
  rw [hist_start, hist_goal, ha, hb] at h1 h2
  simp only [Option.some_or] at h1 h2
  refine ⟨g.data, g.env, g.fwd, hE, hm, ?_⟩
  cases fwd with
  | true => exact ⟨a, b, h1, h2, rfl, rfl, g.live' hr h1 h2⟩
  | false => exact ⟨b, a, h1, h2, rfl, rfl, g.live' hr h1 h2⟩

/-- **C86** Whenever `replan` reports success, the returned states form a path from the start to the goal of the
current environment without repeated states, whose cost is at most the reported cost, which is below
INFINITECOST; otherwise the path is empty.  For every environment with positive costs, every heuristic, every
ready history and every time limit. -/
theorem replan_path_sound (he : EnvOk env0) (hok : ∀ op ∈ ops, OpOk op) (hrd : Ready fwd bs .new ops)
    (hrun : (init env0 fwd).run ops = some st) (ha : lastStart ops = some a) (hb : lastGoal ops = some b)
    (hr : st.replan bs = .ok (st', res)) :
    (res.found = true → FromTo res.path a b ∧ res.path.Nodup ∧
      ∃ n, PathCost ((lastEnv env0 ops).succs b) res.path n ∧ n ≤ res.cost ∧ res.cost < INFINITECOST) ∧
    (res.found = false → res.path = [] ∧ res.cost = INFINITECOST) := by
  obtain ⟨d, g, hf, hE, _, s0, gl, h0, hg, e1, e2, l1, l2⟩ := hist he hok hrd hrun ha hb
  have sp := replan_spec bs d g h0 hg l1 l2
  rw [hr] at sp
  have p := sp.path
  rw [hf, hE, e1, e2] at p
  exact ⟨p, sp.nfound⟩

/-- **C87** Once start and goal are set, the only exception `replan` can raise is the one of a full heap (the OPEN
list needs more than HEAPSIZE elements): none of the consistency checks of the code fails, and path extraction ends. -/
theorem replan_exceptions (he : EnvOk env0) (hok : ∀ op ∈ ops, OpOk op) (hrd : Ready fwd bs .new ops)
    (hrun : (init env0 fwd).run ops = some st) (ha : lastStart ops = some a) (hb : lastGoal ops = some b)
    {x : PErr} (hr : st.replan bs = .error x) : x = .heap .full := by
  obtain ⟨d, g, hf, hE, _, s0, gl, h0, hg, e1, e2, l1, l2⟩ := hist he hok hrd hrun ha hb
  have sp := replan_spec bs d g h0 hg l1 l2
  rw [hr] at sp
  exact sp

/-- **C88** With an admissible heuristic, the value `p / q` returned by `get_solution_eps` after `replan` is a true
suboptimality bound: the reported cost is at most `p / q` times the cost of every path from start to goal (if
the goal was not found, the reported cost is INFINITECOST).  It is never below 1. -/
theorem replan_bound (he : EnvOk env0) (hok : ∀ op ∈ ops, OpOk op) (hrd : Ready fwd bs .new ops)
    (hrun : (init env0 fwd).run ops = some st) (ha : lastStart ops = some a) (hb : lastGoal ops = some b)
    (hr : st.replan bs = .ok (st', res)) (hh : AdmOk (lastEnv env0 ops) fwd)
    (hp : fwd = false → PredsOk (lastEnv env0 ops) a) :
    1 ≤ res.eps.1 ∧ res.eps.2 ≤ res.eps.1 ∧
    ∀ c, Walk ((lastEnv env0 ops).succs b) a b c → res.cost * res.eps.2 ≤ res.eps.1 * c := by
  obtain ⟨d, g, hf, hE, _, s0, gl, h0, hg, e1, e2, l1, l2⟩ := hist he hok hrd hrun ha hb
  have sp := replan_spec bs d g h0 hg l1 l2
  rw [hr] at sp
  have sp : RPost st s0 gl bs st' res := sp
  rw [sp.eps, sp.cost]
  refine ⟨sp.inv.epsOk.1, sp.inv.epsOk.2, ?_⟩
  intro c w
  obtain ⟨m, hm, w'⟩ := walk_base g h0 (gl := gl) (by rw [hf, hE, e1]; exact hp) (by rw [hf, hE, e1, e2]; exact w)
  have g' : EnvOk st'.env := by rw [sp.env]; exact g
  have := sp.inv.sat (envOk_base g') (adm_base g' (by rw [sp.env, sp.fwd, hf, hE]; exact hh) (sp.start.trans h0)) m (by
    have : st'.base = st.base := by funext s; simp only [base, sp.env, sp.fwd, sp.start]
    rw [this]; exact w')
  exact Nat.le_trans this (Nat.mul_le_mul_left _ hm)

/-- **C89a** Given enough time the search is optimal and complete: suppose the heuristic is admissible, the states
reachable in the search graph are among the finitely many `R`, the planner is not in first-solution mode, and
every loop may be checked more than `(2 * INFINITECOST + 1) * R.length` times.  Then the goal is found iff there is a
path of cost below INFINITECOST, and the reported cost is at most that of any path. -/
theorem replan_optimal (he : EnvOk env0) (hok : ∀ op ∈ ops, OpOk op) (hrd : Ready fwd bs .new ops)
    (hrun : (init env0 fwd).run ops = some st) (ha : lastStart ops = some a) (hb : lastGoal ops = some b)
    (hr : st.replan bs = .ok (st', res)) (hh : AdmOk (lastEnv env0 ops) fwd)
    (hp : fwd = false → PredsOk (lastEnv env0 ops) a) (hmode : lastMode false ops = false) {R : List Nat}
    (hR : ∀ s c, Walk (searchGraph (lastEnv env0 ops) fwd b) (if fwd then a else b) s c → s ∈ R)
    (hlong : ∀ n ∈ bs, (2 * INFINITECOST + 1) * R.length < n) (hpass : (2 * INFINITECOST + 1) * R.length < bs.length) :
    (res.found = true ↔ ∃ c, Walk ((lastEnv env0 ops).succs b) a b c ∧ c < INFINITECOST) ∧
    ∀ c, Walk ((lastEnv env0 ops).succs b) a b c → res.cost ≤ c := by
  obtain ⟨d, g, hf, hE, hm, s0, gl, h0, hg, e1, e2, l1, l2⟩ := hist he hok hrd hrun ha hb
  have ps := replan_path_sound he hok hrd hrun ha hb hr
  have sp := replan_spec bs d g h0 hg l1 l2
  rw [hr] at sp
  have sp : RPost st s0 gl bs st' res := sp
  have es : (if fwd then a else b) = s0 := by
    rw [← e1, ← e2]; unfold envStart envGoal; split <;> rfl
  have hle : (2 * INFINITECOST + 1) * R.dedup.length ≤ (2 * INFINITECOST + 1) * R.length :=
    Nat.mul_le_mul_left _ (List.dedup_sublist R).length_le
  have fin := sp.fin R.dedup (List.nodup_dedup R) (by
    intro u k w
    rw [base_searchGraph hf h0 e2, hE] at w
    exact List.mem_dedup.mpr (hR u k (by rw [es]; exact w))) (fun n hn => Nat.lt_of_le_of_lt hle (hlong n hn))
    (by rw [hm]; exact hmode) (Nat.lt_of_le_of_lt hle hpass)
  have g' : EnvOk st'.env := by rw [sp.env]; exact g
  have opt : ∀ c, Walk ((lastEnv env0 ops).succs b) a b c → res.cost ≤ c := by
    intro c w
    obtain ⟨m, hm, w'⟩ := walk_base g h0 (gl := gl) (by rw [hf, hE, e1]; exact hp) (by rw [hf, hE, e1, e2]; exact w)
    rw [sp.cost]
    refine Nat.le_trans (sp.inv.optimal (envOk_base g') (adm_base g' (by rw [sp.env, sp.fwd, hf, hE]; exact hh) (sp.start.trans h0)) fin ?_) hm
    have : st'.base = st.base := by funext s; simp only [base, sp.env, sp.fwd, sp.start]
    rw [this]; exact w'
  refine ⟨⟨?_, ?_⟩, opt⟩
  · intro hf'
    obtain ⟨⟨p1, p2⟩, _, n, p3, p4, p5⟩ := ps.1 hf'
    have key : ∀ p n, PathCost ((lastEnv env0 ops).succs b) p n → ∀ x, p.head? = some x → ∀ y, p.getLast? = some y →
        Walk ((lastEnv env0 ops).succs b) x y n := by
      intro p n h
      induction h with
      | single s => intro x hx y hy; simp at hx hy; subst hx hy; exact .nil
      | @cons s t c n p h1 h2 ih =>
        intro x hx y hy
        simp at hx; subst hx
        rw [List.getLast?_cons_cons] at hy
        exact ARA.walk_cons h1 (ih t rfl y hy)
    exact ⟨n, key _ _ p3 a p1 b p2, by omega⟩
  · rintro ⟨c, w, hc⟩
    by_contra q
    have q : res.found = false := by simpa using q
    have h1 := (ps.2 q).2
    have h2 := opt c w
    omega

/-- **C89b** Also in first-solution mode (or with only one pass allowed) a first pass with enough time finds the goal
iff there is a path of cost below INFINITECOST. -/
theorem replan_complete (he : EnvOk env0) (hok : ∀ op ∈ ops, OpOk op) (hrd : Ready fwd bs .new ops)
    (hrun : (init env0 fwd).run ops = some st) (ha : lastStart ops = some a) (hb : lastGoal ops = some b)
    (hr : st.replan bs = .ok (st', res)) (hh : AdmOk (lastEnv env0 ops) fwd)
    (hp : fwd = false → PredsOk (lastEnv env0 ops) a) (hbs : bs ≠ []) {R : List Nat}
    (hR : ∀ s c, Walk (searchGraph (lastEnv env0 ops) fwd b) (if fwd then a else b) s c → s ∈ R)
    (hlong : ∀ n ∈ bs, (2 * INFINITECOST + 1) * R.length < n) {c : Nat}
    (w : Walk ((lastEnv env0 ops).succs b) a b c) (hc : c < INFINITECOST) : res.found = true := by
  obtain ⟨d, g, hf, hE, hm, s0, gl, h0, hg, e1, e2, l1, l2⟩ := hist he hok hrd hrun ha hb
  have sp := replan_spec bs d g h0 hg l1 l2
  rw [hr] at sp
  have sp : RPost st s0 gl bs st' res := sp
  have es : (if fwd then a else b) = s0 := by
    rw [← e1, ← e2]; unfold envStart envGoal; split <;> rfl
  have hle : (2 * INFINITECOST + 1) * R.dedup.length ≤ (2 * INFINITECOST + 1) * R.length :=
    Nat.mul_le_mul_left _ (List.dedup_sublist R).length_le
  have fin := sp.finF R.dedup (List.nodup_dedup R) (by
    intro u k w
    rw [base_searchGraph hf h0 e2, hE] at w
    exact List.mem_dedup.mpr (hR u k (by rw [es]; exact w))) (fun n hn => Nat.lt_of_le_of_lt hle (hlong n hn)) hbs
  have g' : EnvOk st'.env := by rw [sp.env]; exact g
  by_contra q
  have q : res.found = false := by simpa using q
  have fin' : st'.heap.size = 0 ∨ st'.epsSat.1 ≤ st'.epsSat.2 := by
    rcases fin with z | z | z
    · exact .inl z
    · exact .inr z
    · rw [q] at z; cases z
  obtain ⟨m, hm, w'⟩ := walk_base g h0 (gl := gl) (by rw [hf, hE, e1]; exact hp) (by rw [hf, hE, e1, e2]; exact w)
  have := sp.inv.optimal (envOk_base g') (adm_base g' (by rw [sp.env, sp.fwd, hf, hE]; exact hh) (sp.start.trans h0)) fin' (n := m) (by
    have : st'.base = st.base := by funext s; simp only [base, sp.env, sp.fwd, sp.start]
    rw [this]; exact w')
  rw [← sp.cost, (sp.nfound q).2] at this
  have h2 : INFINITECOST ≤ m := this
  omega

/-- **C90** Anytime behaviour over successive calls: a second `replan` right after the first never loses the solution
or reports a higher cost (any heuristic), and with a consistent heuristic its suboptimality bound is at most
the first one. -/
theorem replan_monotone (he : EnvOk env0) (hok : ∀ op ∈ ops, OpOk op) (hrd : Ready fwd bs .new ops)
    (hrun : (init env0 fwd).run ops = some st) (ha : lastStart ops = some a) (hb : lastGoal ops = some b)
    (hr : st.replan bs = .ok (st', res)) (hr' : st'.replan bs' = .ok (st'', res')) :
    (res.found = true → res'.found = true) ∧ res'.cost ≤ res.cost ∧
    (HeurOk (lastEnv env0 ops) fwd → FracLe res'.eps res.eps) := by
  obtain ⟨d, g, hf, hE, hm, s0, gl, h0, hg, e1, e2, l1, l2⟩ := hist he hok hrd hrun ha hb
  have sp := replan_spec bs d g h0 hg l1 l2
  rw [hr] at sp
  have sp : RPost st s0 gl bs st' res := sp
  have g' : EnvOk st'.env := by rw [sp.env]; exact g
  have sp' := replan_spec bs' sp.inv.data g' (sp.start.trans h0) (sp.goal.trans hg) (fun _ => ⟨sp.inv, sp.swept⟩)
    (fun h => by rw [sp.reinit] at h; cases h)
  rw [hr'] at sp'
  have sp' : RPost st' s0 gl bs' st'' res' := sp'
  obtain ⟨m1, m2⟩ := sp'.mono sp.reinit
  rw [← sp.cost] at m1
  rw [← sp.eps] at m2
  refine ⟨?_, m1, fun hh => m2 (cons_base g' (by rw [sp.env, sp.fwd, hf, hE]; exact hh) (sp.start.trans h0))⟩
  intro hfd
  by_contra q
  have q : res'.found = false := by simpa using q
  obtain ⟨_, _, n, _, _, h5⟩ := sp.path hfd
  rw [(sp'.nfound q).2] at m1
  exact absurd h5 (by omega)

/-- **C91** The state searched towards is never expanded, and every expanded state is reachable in the search graph. -/
theorem replan_expansions (he : EnvOk env0) (hok : ∀ op ∈ ops, OpOk op) (hrd : Ready fwd bs .new ops)
    (hrun : (init env0 fwd).run ops = some st) (ha : lastStart ops = some a) (hb : lastGoal ops = some b)
    (hr : st.replan bs = .ok (st', res)) : ∀ tr ∈ res.traces, (if fwd then b else a) ∉ tr ∧
      ∀ s ∈ tr, ∃ c, Walk (searchGraph (lastEnv env0 ops) fwd b) (if fwd then a else b) s c := by
  obtain ⟨d, g, hf, hE, hm, s0, gl, h0, hg, e1, e2, l1, l2⟩ := hist he hok hrd hrun ha hb
  have sp := replan_spec bs d g h0 hg l1 l2
  rw [hr] at sp
  have sp : RPost st s0 gl bs st' res := sp
  have es : (if fwd then a else b) = s0 := by
    rw [← e1, ← e2]; unfold envStart envGoal; split <;> rfl
  have eg : (if fwd then b else a) = gl := by
    rw [← e1, ← e2]; unfold envStart envGoal; split <;> rfl
  intro tr ht
  rw [es, eg]
  refine ⟨sp.noGoal tr ht, fun s hs => ?_⟩
  have := sp.reach tr ht s hs
  rw [base_searchGraph hf h0 e2, hE] at this
  exact this

end

/-- A consistent heuristic is admissible, so C88 and C89 apply to it. -/
theorem admOk_of_heurOk {env : PEnv} {fwd : Bool} (h : HeurOk env fwd) : AdmOk env fwd := by
  unfold HeurOk at h
  unfold AdmOk
  split at h
  next f =>
    rw [if_pos f]; intro gl s n w
    have := walk_cons_le (h gl).2 w
    rw [(h gl).1] at this; omega
  next f =>
    rw [if_neg f]; intro gl s t n w
    have := walk_cons_le (h gl s).2 w
    rw [(h gl s).1] at this; omega

end Sbpl.ANAProps
