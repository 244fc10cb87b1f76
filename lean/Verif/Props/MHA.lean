import Verif.Proofs.MHAReplan
import Verif.Props.ARA
/-!
# Properties of `MHAPlanner` over arbitrary histories of interface calls (C35–C40)

In all theorems: a planner is constructed on an environment with an anchor heuristic (number 0) and any number `hcount` of
additional heuristics, an arbitrary list `ops` of interface calls is made, and then `replan` is called with arbitrary parameters
and an arbitrary time limit.  The additional heuristics are arbitrary everywhere.
-/

namespace Sbpl.MHAProps
open Sbpl GraphSpec MHASpec MHA

section
variable {env0 : PEnv} {hs0 : Nat → Nat → Nat → Nat} {hcount D : Nat} {ops : List Op} {st st' : MHA} {p : Params} {budget : Nat}
  {res : Result} {a b : Nat}

/-- the calls made leave the planner with start `a`, goal `b`, and `replan` accepts its parameters -/
structure Called (env0 : PEnv) (hs0 : Nat → Nat → Nat → Nat) (hcount D : Nat) (ops : List Op) (st : MHA) (p : Params) (a b : Nat) :
    Prop where
  run : (init env0 hs0 hcount D).run ops = some st
  start : lastStart ops = some a
  goal : lastGoal ops = some b
  initEps : D ≤ p.initEps
  finalEps : p.finalEps ≤ p.initEps
  decEps : 1 ≤ p.decEps
  mhaEps : D ≤ lastMhaEps D ops
  limit : p.first = true → p.timed = true ∨ 1 ≤ lastMaxExp 0 ops

theorem hist (c : Called env0 hs0 hcount D ops st p a b) :
    Tracks (init env0 hs0 hcount D) st ops ∧ OkOr (st.replan p budget) fun r => ReplanPost st p budget a b r.1 r.2 := by
  have t := run_tracks ops (init_between ..) c.run
  refine ⟨t, ?_⟩
  have h0 : st.start = some a := by rw [t.start, c.start]; rfl
  have hg : st.goal = some b := by rw [t.goal, c.goal]; rfl
  refine replan_post (run_between ops (init_between ..) c.run) budget h0 hg ?_
  have e1 : st.D = D := t.D
  have e2 : st.initEpsMha = lastMhaEps D ops := t.ime
  have e3 : st.maxExp = lastMaxExp 0 ops := t.me
  have i1 := c.initEps
  have i2 := c.finalEps
  have i3 := c.decEps
  have i4 := c.mhaEps
  have i5 := c.limit
  unfold checkParams
  rw [e1, e2, e3, if_neg (by omega), if_neg (by omega), if_neg (by omega), if_neg (by omega)]
  split
  next h =>
    simp only [Bool.and_eq_true, Bool.not_eq_true', decide_eq_true_eq] at h
    rcases i5 h.1.1 with q | q
    · rw [h.1.2] at q; cases q
    · omega
  · rfl

theorem post (c : Called env0 hs0 hcount D ops st p a b) (hr : st.replan p budget = .ok (st', res)) :
    ReplanPost st p budget a b st' res := by
  have := (hist (budget := budget) c).2
  rw [hr] at this
  exact this

/-- **C35** Whenever `replan` reports success and does not return the goal alone, the returned states form a path without
repetitions from the start to the goal in the current environment whose cost is at most the reported cost, and the reported bound
is initial eps times MHA eps.  For every environment (zero-cost edges included), any heuristics, every history, every limit. -/
theorem replan_path_sound (c : Called env0 hs0 hcount D ops st p a b) (hr : st.replan p budget = .ok (st', res))
    (hf : res.found = true) (hp : res.path ≠ [b]) :
    FromTo res.path a b ∧ res.path.Nodup ∧ res.eps = some (p.initEps * lastMhaEps D ops) ∧
      ∃ n : Nat, PathCost ((lastEnv env0 hs0 ops).1.succs b) res.path n ∧ (n : Int) ≤ res.cost ∧ res.cost < INFINITECOST := by
  have t := (hist (budget := budget) c).1
  have r := post c hr
  obtain ⟨_, h2, _, h3⟩ := r.succ hf
  rcases h3 with ⟨g, e1, e2, e3, n, e4, e5⟩ | ⟨_, _, e⟩
  · refine ⟨e2, e3, ?_, n, ?_, ?_, ?_⟩
    · rw [h2, t.ime]; rfl
    · have : st.env = (lastEnv env0 hs0 ops).1 := t.env
      rw [← this]; exact e4
    · rw [e1]; exact_mod_cast e5
    · rw [e1]; exact_mod_cast g
  · exact absurd e hp

/-- the same when start and goal coincide: the answer is the single state, at cost 0 -/
theorem replan_start_is_goal (c : Called env0 hs0 hcount D ops st p a a) (hr : st.replan p budget = .ok (st', res))
    (hf : res.found = true) : res.path = [a] ∧ res.cost = 0 := by
  have r := post c hr
  obtain ⟨_, _, _, h3⟩ := r.succ hf
  rcases h3 with ⟨g, e1, ⟨e2, e2'⟩, e3, n, e4, e5⟩ | ⟨_, e0, e⟩
  · refine ⟨?_, by rw [e1, r.ok.gS]; rfl⟩
    cases hp : res.path with
    | nil => rw [hp] at e2; cases e2
    | cons x l =>
      rw [hp] at e2 e2' e3
      cases e2
      cases l with
      | nil => rfl
      | cons y l =>
        rw [List.getLast?_cons_cons] at e2'
        have := List.mem_of_getLast? e2'
        exact absurd this (List.nodup_cons.mp e3).1
  · exact ⟨e, e0⟩

/-- **C36, general form** Suppose the anchor heuristic is zero at the goal and its inflated values decrease along every edge by at
most `N / M ≥ 1` times the cost.  When `replan` succeeds the reported cost is at most (MHA eps) * `N / M` times the cost of every
path, and if some path is cheap enough for this bound to be below INFINITECOST, the returned path is genuine. -/
theorem replan_bound_general (c : Called env0 hs0 hcount D ops st p a b) (hr : st.replan p budget = .ok (st', res))
    (hf : res.found = true) {N M w : Nat} (hMN : M ≤ N) (hz : (lastEnv env0 hs0 ops).2 0 b b = 0)
    (hu : UpTo ((lastEnv env0 hs0 ops).1.succs b) ((lastEnv env0 hs0 ops).2 0 b) D p.initEps N M)
    (hw : Walk ((lastEnv env0 hs0 ops).1.succs b) a b w) :
    (D : Int) * (M * res.cost) ≤ lastMhaEps D ops * (N * w) ∧
    (lastMhaEps D ops * (N * w) < D * (M * INFINITECOST) → FromTo res.path a b) := by
  have t := (hist (budget := budget) c).1
  have r := post c hr
  obtain ⟨h1, _, _, h3⟩ := r.succ hf
  have tD : st.D = D := t.D
  have te : st.env = (lastEnv env0 hs0 ops).1 := t.env
  have th : st.hs = (lastEnv env0 hs0 ops).2 := t.hs
  have tm : st.initEpsMha = lastMhaEps D ops := t.ime
  have hG : Good st' b N M := by
    refine ⟨hMN, ?_, ?_⟩
    · rw [r.keeps.hs, th]; exact hz
    · rw [r.keeps.env, r.keeps.hs, r.keeps.D, r.eps, te, th, tD]; exact hu
  have bd := found_bound r.ok h1 hG (by rw [r.keeps.D, tD, r.epsMha, tm]; exact c.mhaEps)
    (by rw [r.keeps.env, te]; exact hw)
  rw [r.keeps.D, tD, r.epsMha, tm] at bd
  rcases h3 with ⟨_, e1, e2, _⟩ | ⟨g, e0, _⟩
  · exact ⟨by rw [e1]; exact_mod_cast bd, fun _ => e2⟩
  · refine ⟨?_, ?_⟩
    · rw [e0]; simp only [mul_zero]
      exact_mod_cast Nat.zero_le (lastMhaEps D ops * (N * w))
    · intro h; rw [g] at bd; exact absurd h (Nat.not_lt.mpr bd)

/-- **C36** With a consistent anchor heuristic and arbitrary additional heuristics, the reported cost is at most
`E` * (MHA eps) times the cost of every path, for every integer `E ≥ eps`.  For integral eps this is the reported bound. -/
theorem replan_bound (c : Called env0 hs0 hcount D ops st p a b) (hr : st.replan p budget = .ok (st', res))
    (hf : res.found = true) {E w : Nat} (hE : 1 ≤ E) (heE : p.initEps ≤ E * D)
    (hc : Consistent ((lastEnv env0 hs0 ops).1.succs b) b ((lastEnv env0 hs0 ops).2 0 b))
    (hw : Walk ((lastEnv env0 hs0 ops).1.succs b) a b w) :
    (D : Int) * res.cost ≤ lastMhaEps D ops * (E * w) ∧
    (lastMhaEps D ops * (E * w) < D * INFINITECOST → FromTo res.path a b) := by
  have := replan_bound_general c hr hf hE hc.1 (ARA.upTo_of_consistent hc heE) hw
  simpa only [Nat.one_mul, Nat.cast_one, one_mul] using this

/-- **C36** The bound that `replan` reports (get_solution_eps, a fraction over `D * D`) is a true bound when the initial eps is an
integer. -/
theorem reported_bound (c : Called env0 hs0 hcount D ops st p a b) (hr : st.replan p budget = .ok (st', res))
    (hf : res.found = true) {E w : Nat} (hD : 1 ≤ D) (heE : p.initEps = E * D)
    (hc : Consistent ((lastEnv env0 hs0 ops).1.succs b) b ((lastEnv env0 hs0 ops).2 0 b))
    (hw : Walk ((lastEnv env0 hs0 ops).1.succs b) a b w) :
    ∃ e, res.eps = some e ∧ (D * D : Int) * res.cost ≤ e * w := by
  have r := post c hr
  have t := (hist (budget := budget) c).1
  have hE : 1 ≤ E := by
    rcases Nat.eq_zero_or_pos E with q | q
    · subst q; have := c.initEps; omega
    · exact q
  obtain ⟨_, h2, _, _⟩ := r.succ hf
  have tm : st.initEpsMha = lastMhaEps D ops := t.ime
  refine ⟨_, h2, ?_⟩
  have := (replan_bound c hr hf hE (Nat.le_of_eq heE) hc hw).1
  have h4 := mul_le_mul_of_nonneg_left this (Int.natCast_nonneg D)
  rw [heE, tm]
  push_cast
  calc (D * D : Int) * res.cost = D * (D * res.cost) := by ring
    _ ≤ D * (lastMhaEps D ops * (E * w)) := h4
    _ = _ := by ring

/-- **C37** If `replan` fails because the anchor's OPEN list ran empty, every path from start to goal costs at least
INFINITECOST / E for every integer `E ≥ eps` (consistent anchor heuristic). -/
theorem replan_failure_complete (c : Called env0 hs0 hcount D ops st p a b) (hr : st.replan p budget = .ok (st', res))
    (hf : res.found = false) (hx : res.exhausted = true) {E w : Nat} (hE : 1 ≤ E) (heE : p.initEps ≤ E * D)
    (hc : Consistent ((lastEnv env0 hs0 ops).1.succs b) b ((lastEnv env0 hs0 ops).2 0 b))
    (hw : Walk ((lastEnv env0 hs0 ops).1.succs b) a b w) : INFINITECOST ≤ E * w := by
  have t := (hist (budget := budget) c).1
  have r := post c hr
  obtain ⟨_, _, _, h4, _⟩ := r.fail hf
  have tD : st.D = D := t.D
  have te : st.env = (lastEnv env0 hs0 ops).1 := t.env
  have th : st.hs = (lastEnv env0 hs0 ops).2 := t.hs
  have hG : Good st' b E 1 := by
    refine ⟨hE, ?_, ?_⟩
    · rw [r.keeps.hs, th]; exact hc.1
    · rw [r.keeps.env, r.keeps.hs, r.keeps.D, r.eps, te, th, tD]; exact ARA.upTo_of_consistent hc heE
  have := exhausted_none r.ok (h4 hx) hG (by rw [r.keeps.env, te]; exact hw)
  rwa [Nat.one_mul] at this

/-- **C38** During one `replan` no state is expanded more than once by the anchor search, or more than once by the additional
searches together, no state is expanded by an additional search after the anchor search, and the goal is never expanded
(`expansions` lists states in order, with whether the anchor search expanded them). -/
theorem replan_expands (c : Called env0 hs0 hcount D ops st p a b) (hr : st.replan p budget = .ok (st', res)) :
    res.expansions.Nodup ∧ res.expansions.Pairwise (fun x y => x.1 = y.1 → x.2 = false ∧ y.2 = true) ∧
      (∀ k, (b, k) ∉ res.expansions) ∧ ∀ s k, (s, k) ∈ res.expansions → ∃ n, Walk ((lastEnv env0 hs0 ops).1.succs b) a s n := by
  have t := (hist (budget := budget) c).1
  have te : st.env = (lastEnv env0 hs0 ops).1 := t.env
  have r := post c hr
  rw [r.exps]
  refine ⟨List.nodup_reverse.mpr r.ok.nd, ?_, ?_, ?_⟩
  · rw [List.pairwise_reverse]
    have h1 := r.ok.order
    have h2 : st'.trace.Pairwise (· ≠ ·) := r.ok.nd
    refine (h1.and h2).imp ?_
    rintro ⟨x, i⟩ ⟨y, j⟩ ⟨q1, q2⟩ e
    simp only at q1 e ⊢
    have hj := q1 e.symm
    refine ⟨hj, ?_⟩
    cases i with
    | true => rfl
    | false => exact absurd (by rw [e, hj]) q2
  · intro k h; exact r.ok.goalNot k (List.mem_reverse.mp h)
  · intro s k h
    obtain ⟨n, w⟩ := trace_reach r.ok (List.mem_reverse.mp h)
    exact ⟨n, by rw [← te, ← r.keeps.env]; exact w⟩

/-- **C39a** The only exception `replan` can raise (start and goal set) is that of a full OPEN heap. -/
theorem replan_exceptions (c : Called env0 hs0 hcount D ops st p a b) {x : PErr} (hr : st.replan p budget = .error x) :
    x = .heap .full := by
  have := (hist (budget := budget) c).2
  rw [hr] at this
  exact this

/-- **C39b** If the states reachable from the start are among the finitely many `R`, the main loop makes at most `2 * R.length`
passes: with a larger time budget `replan` fails only because the anchor's OPEN list is empty or because of the expansion limit. -/
theorem replan_terminates (c : Called env0 hs0 hcount D ops st p a b) (hr : st.replan p budget = .ok (st', res)) {R : List Nat}
    (hR : ∀ s n, Walk ((lastEnv env0 hs0 ops).1.succs b) a s n → s ∈ R) (hlong : 2 * R.length < budget) :
    res.found = true ∨ res.exhausted = true ∨
      (p.first = false ∧ 1 ≤ lastMaxExp 0 ops ∧ lastMaxExp 0 ops ≤ res.expansions.length) := by
  have t := (hist (budget := budget) c).1
  have r := post c hr
  cases hf : res.found with
  | true => exact .inl rfl
  | false =>
    right
    cases hx : res.exhausted with
    | true => exact .inl rfl
    | false =>
      right
      obtain ⟨_, _, _, _, h5⟩ := r.fail hf
      rcases h5 hx with q | q
      · simp only [expLimit, Bool.and_eq_true, Bool.not_eq_true', decide_eq_true_eq] at q
        have e : st'.maxExp = lastMaxExp 0 ops := by rw [r.keeps.me, t.me]; rfl
        rw [e, r.ok.len] at q
        rw [r.exps, List.length_reverse]
        exact ⟨q.1.1, q.1.2, q.2⟩
      · exfalso
        obtain ⟨n1, _, _, n4⟩ := replan_expands c hr
        rw [r.exps] at n1 n4
        have : st'.trace.reverse.length ≤ (R.map (fun s => (s, true)) ++ R.map (fun s => (s, false))).length :=
          ARA.nodup_length_le n1 (by
            rintro ⟨s, k⟩ h
            obtain ⟨n, w⟩ := n4 s k h
            have := hR s n w
            cases k <;> simp [this])
        simp only [List.length_reverse, List.length_append, List.length_map] at this
        omega

/-- **C39c** The expansion limit is respected up to one round over the additional searches. -/
theorem replan_expansion_limit (c : Called env0 hs0 hcount D ops st p a b) (hr : st.replan p budget = .ok (st', res))
    (hp : p.first = false) (hm : 1 ≤ lastMaxExp 0 ops) :
    res.expansions.length < lastMaxExp 0 ops + max 1 hcount := by
  have t := (hist (budget := budget) c).1
  have r := post c hr
  have e1 : st.maxExp = lastMaxExp 0 ops := t.me
  have e2 : st.hcount = hcount := t.hcount
  have := r.num hp (by omega)
  rwa [e1, e2] at this

end

/-! ## Concrete runs -/

/-- construct, make the calls, call `replan` -/
def planRun (env : PEnv) (hs : Nat → Nat → Nat → Nat) (hcount D : Nat) (ops : List Op) (p : Params) (budget : Nat) : Option Result :=
  match (MHA.init env hs hcount D).run ops with
  | none => none
  | some st => match st.replan p budget with
    | .ok (_, r) => some r
    | .error _ => none

theorem planRun_some {env : PEnv} {hs : Nat → Nat → Nat → Nat} {hcount D : Nat} {ops : List Op} {p : Params} {budget : Nat}
    {r : Result} (h : planRun env hs hcount D ops p budget = some r) :
    ∃ st st', (MHA.init env hs hcount D).run ops = some st ∧ st.replan p budget = .ok (st', r) := by
  unfold planRun at h
  split at h
  · cases h
  · rename_i st h1
    split at h
    · rename_i st' r' h2
      cases h
      exact ⟨st, st', h1, h2⟩
    · cases h

def noEdges : PEnv := ARAProps.tableEnv [] (fun _ _ => 0) (fun _ _ => 0)
def farH (_ gl s : Nat) : Nat := if s = gl then 0 else INFINITECOST

/-- **C40, refuted** "If `replan` reports success there is a path": heuristics report INFINITECOST for a state from which the goal
cannot be reached (as the 2-D grid heuristics do), the key of the start is then not below the goal's g-value, and `replan` reports
success with cost 0 and the goal alone as the path, although no edge leaves the start. -/
theorem success_without_path :
    Consistent (noEdges.succs 1) 1 (farH 0 1) ∧ (∀ n, ¬ Walk (noEdges.succs 1) 0 1 n) ∧
    ∃ st st' res, Called noEdges farH 1 1 [.setGoal 1, .setStart 0] st ⟨1, 1, 1, false, true⟩ 0 1 ∧
      st.replan ⟨1, 1, 1, false, true⟩ 9 = .ok (st', res) ∧ res.found = true ∧ res.path = [1] ∧ res.cost = 0 := by
  have hno : ∀ s, noEdges.succs 1 s = [] := by
    intro s; simp [noEdges, ARAProps.tableEnv]
  refine ⟨⟨by simp [farH], ?_⟩, ?_, ?_⟩
  · intro s t c h; rw [hno] at h; cases h
  · intro n w
    cases w with
    | snoc _ h => rw [hno] at h; cases h
  · have e : planRun noEdges farH 1 1 [.setGoal 1, .setStart 0] ⟨1, 1, 1, false, true⟩ 9 =
        some ⟨true, [1], 0, some 1, [], false⟩ := by decide +kernel
    obtain ⟨st, st', h1, h2⟩ := planRun_some e
    exact ⟨st, st', _, ⟨h1, rfl, rfl, by simp, by simp, by simp, by decide, by simp⟩, h2, rfl, rfl, rfl⟩

/-- a short detour (cost 2) is better than the direct edge (cost 5); the additional heuristic dislikes the detour -/
def detour : PEnv := ARAProps.tableEnv [(0, 2, 5), (0, 1, 1), (1, 2, 1), (2, 3, 7)] (fun _ _ => 0) (fun _ _ => 0)
def detourH (i gl s : Nat) : Nat :=
  if gl = 2 then (if i = 0 then (if s ≤ 1 then 1 else 0) else (if s = 1 then 9 else 0)) else 0

theorem detour_consistent : Consistent (detour.succs 2) 2 (detourH 0 2) := by
  refine ⟨by decide, ?_⟩
  intro s t c h
  simp only [detour, ARAProps.tableEnv] at h
  split at h
  · cases h
  · have hm := ARAProps.mem_tableSucc.mp h
    have key : ∀ e ∈ [(0, 2, 5), (0, 1, 1), (1, 2, 1), (2, 3, 7)], detourH 0 2 e.1 ≤ detourH 0 2 e.2.1 + e.2.2 := by decide
    exact key _ hm

def mhaOps : List Op := [.setMhaEps 6, .setGoal 2, .setStart 0]

theorem detour_run : planRun detour detourH 1 2 mhaOps ⟨2, 2, 2, false, true⟩ 9 =
    some ⟨true, [0, 2], 5, some 12, [(0, false)], false⟩ := by decide +kernel

/-- The hypotheses of C35, C36, C38 and C39 hold in a run (MHA eps = 3, eps = 1, one additional heuristic) which returns the
direct edge at cost 5 ≤ 3 * 2. -/
example : ∃ st st' res, Called detour detourH 1 2 mhaOps st ⟨2, 2, 2, false, true⟩ 0 2 ∧
    st.replan ⟨2, 2, 2, false, true⟩ 9 = .ok (st', res) ∧ res.found = true ∧ res.path = [0, 2] ∧ res.cost = 5 ∧
    Consistent ((lastEnv detour detourH mhaOps).1.succs 2) 2 ((lastEnv detour detourH mhaOps).2 0 2) ∧
    Walk ((lastEnv detour detourH mhaOps).1.succs 2) 0 2 2 ∧ (2 : Nat) ≤ 1 * 2 ∧
    lastMhaEps 2 mhaOps * (1 * 2) < 2 * INFINITECOST := by
  obtain ⟨st, st', h1, h2⟩ := planRun_some detour_run
  refine ⟨st, st', _, ⟨h1, rfl, rfl, by simp, by simp, by simp, by decide, by simp⟩, h2, rfl, rfl, rfl, detour_consistent, ?_,
    by simp, by decide⟩
  exact (Walk.nil.snoc (t := 1) (c := 1) (by decide)).snoc (t := 2) (c := 1) (by decide)

/-- a later call on a changed environment: replanning starts from scratch -/
def againOps : List Op :=
  mhaOps ++ [.replan ⟨2, 2, 2, false, true⟩ 9, .setMhaEps 2, .setEnv (ARAProps.tableEnv [(0, 1, 0), (1, 2, 4)] (fun _ _ => 0) (fun _ _ => 0)) (fun _ _ _ => 0)]

example : ∃ st st' res, Called detour detourH 1 2 againOps st ⟨2, 2, 2, false, true⟩ 0 2 ∧
    st.replan ⟨2, 2, 2, false, true⟩ 9 = .ok (st', res) ∧ res.found = true ∧ res.path = [0, 1, 2] ∧ res.cost = 4 := by
  have e : planRun detour detourH 1 2 againOps ⟨2, 2, 2, false, true⟩ 9 =
    some ⟨true, [0, 1, 2], 4, some 4, [(0, false), (1, false)], false⟩ := by decide +kernel
  obtain ⟨st, st', h1, h2⟩ := planRun_some e
  exact ⟨st, st', _, ⟨h1, rfl, rfl, by simp, by simp, by simp, by decide, by simp⟩, h2, rfl, rfl, rfl⟩

/-- the anchor's list runs empty (C37) -/
example : ∃ st st' res, Called detour detourH 2 1 [.setGoal 0, .setStart 1] st ⟨1, 1, 1, false, true⟩ 1 0 ∧
    st.replan ⟨1, 1, 1, false, true⟩ 9 = .ok (st', res) ∧ res.found = false ∧ res.exhausted = true ∧
    res.expansions = [(1, false), (2, false), (3, false)] := by
  have e : planRun detour detourH 2 1 [.setGoal 0, .setStart 1] ⟨1, 1, 1, false, true⟩ 9 =
    some ⟨false, [], 0, none, [(1, false), (2, false), (3, false)], true⟩ := by decide +kernel
  obtain ⟨st, st', h1, h2⟩ := planRun_some e
  exact ⟨st, st', _, ⟨h1, rfl, rfl, by simp, by simp, by simp, by decide, by simp⟩, h2, rfl, rfl, rfl⟩

/-- **C40, refuted** "With time left, `replan` improves its solution until the requested final eps": `replan` asked for initial
eps 3 and final eps 1 returns the first solution (cost 5, bound 3) although the time limit is not reached and a path of cost 2
exists.  (A search with initial eps 1 finds it.) -/
theorem final_eps_ignored :
    Consistent (detour.succs 2) 2 (detourH 0 2) ∧ Walk (detour.succs 2) 0 2 2 ∧
    ∃ st st' res, Called detour detourH 0 1 [.setGoal 2, .setStart 0] st ⟨6, 1, 1, false, true⟩ 0 2 ∧
      st.replan ⟨6, 1, 1, false, true⟩ 1000 = .ok (st', res) ∧ res.found = true ∧ res.cost = 5 ∧ res.eps = some 6 ∧
      res.expansions.length = 1 := by
  refine ⟨detour_consistent, (Walk.nil.snoc (t := 1) (c := 1) (by decide)).snoc (t := 2) (c := 1) (by decide), ?_⟩
  have e : planRun detour detourH 0 1 [.setGoal 2, .setStart 0] ⟨6, 1, 1, false, true⟩ 1000 =
    some ⟨true, [0, 2], 5, some 6, [(0, true)], false⟩ := by decide +kernel
  obtain ⟨st, st', h1, h2⟩ := planRun_some e
  exact ⟨st, st', _, ⟨h1, rfl, rfl, by simp, by simp, by simp, by decide, by simp⟩, h2, rfl, rfl, rfl, rfl⟩

end Sbpl.MHAProps
