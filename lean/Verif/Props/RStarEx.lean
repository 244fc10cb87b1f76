import Verif.Props.RStar
/-!
# R*: concrete runs - the hypotheses of C96–C100 are met by non-trivial cases; refuted expectations C101, C102
-/

namespace Sbpl.RStarProps
open GraphSpec RStar RStarSpec

/-- an environment given by its edges `(source, target, cost)`, zero heuristics -/
def tab (es : List (Nat × Nat × Nat)) (eq : Nat → Nat → Bool) (rs : Nat → Nat → List (Nat × Nat)) : REnv :=
  { succs := fun s => es.filterMap fun e => if e.1 = s then some e.2 else none
    preds := fun s => es.filterMap fun e => if e.2.1 = s then some (e.1, e.2.2) else none
    h := fun _ _ => 0, equiv := eq, randS := rs, randP := rs }

theorem tab_succs {es : List (Nat × Nat × Nat)} {eq rs} {s t c : Nat} : (t, c) ∈ (tab es eq rs).succs s ↔ (s, t, c) ∈ es := by
  simp only [tab, List.mem_filterMap]
  constructor
  · rintro ⟨⟨u, v⟩, h1, h2⟩
    split at h2
    next q => simp only [Option.some.injEq] at h2; simp only at q; subst q h2; exact h1
    next => cases h2
  · intro h; exact ⟨(s, t, c), h, by simp⟩

theorem tab_preds {es : List (Nat × Nat × Nat)} {eq rs} {s t c : Nat} : (s, c) ∈ (tab es eq rs).preds t ↔ (s, t, c) ∈ es := by
  simp only [tab, List.mem_filterMap]
  constructor
  · rintro ⟨⟨u, v, w⟩, h1, h2⟩
    split at h2
    next q =>
      simp only [Option.some.injEq, Prod.mk.injEq] at h2
      simp only at q
      obtain ⟨h2, h3⟩ := h2
      subst q h2 h3; exact h1
    next => cases h2
  · intro h; exact ⟨(s, t, c), h, by simp⟩

theorem tab_ok {es : List (Nat × Nat × Nat)} {eq rs} (h : ∀ e ∈ es, 1 ≤ e.2.2) : REnvOk (tab es eq rs) :=
  ⟨fun _ _ _ q => h _ (tab_succs.mp q), fun _ _ _ q => h _ (tab_preds.mp q)⟩

theorem tab_predsIn {es : List (Nat × Nat × Nat)} {eq rs} : PredsIn (tab es eq rs) (tab es eq rs).succs := fun _ _ _ q => tab_succs.mpr (tab_preds.mp q)

theorem tab_id {es : List (Nat × Nat × Nat)} {rs} : IdEquiv (tab es (· == ·) rs) := fun a b h => by simpa [tab] using h

theorem tab_small {es : List (Nat × Nat × Nat)} {eq rs} {fwd : Bool} {s : Nat} (V : List Nat) (C : Nat) (h1 : s ∈ V) (h2 : ∀ e ∈ es, e.1 ∈ V ∧ e.2.1 ∈ V ∧ e.2.2 ≤ C)
    (h3 : C * V.length * V.length < INFINITECOST) : Small (tab es eq rs) fwd s := by
  refine ⟨V, C, h1, fun u _ t c h => ?_, h3⟩
  cases fwd
  · have := h2 _ (tab_preds.mp h); exact ⟨this.1, this.2.2⟩
  · have := h2 _ (tab_succs.mp h); exact ⟨this.2.1, this.2.2⟩

/-- initial eps 3, step 0.2, final eps 1, at most 1000 expansions in a first low-level search; unlimited time -/
def rRun (env : REnv) (fwd : Bool) (ops : List Op) (fuel : Nat) : Option (Except RErr RStar.Result) :=
  ((RStar.init env fwd 5 15 5 5 1000).run ops).map fun st =>
    match st.replan (fun _ => false) fuel with
    | .error e => .error e
    | .ok (_, r) => .ok r

theorem rRun_ok {env fwd ops fuel r} (h : rRun env fwd ops fuel = some (.ok r)) :
    ∃ st st', (RStar.init env fwd 5 15 5 5 1000).run ops = some st ∧ st.replan (fun _ => false) fuel = .ok (st', r) := by
  unfold rRun at h
  cases q : (RStar.init env fwd 5 15 5 5 1000).run ops with
  | none => rw [q] at h; cases h
  | some st =>
    rw [q] at h
    simp only [Option.map_some, Option.some.injEq] at h
    split at h
    · cases h
    next st' r' hr => cases h; exact ⟨st, st', rfl, hr⟩

theorem rRun_err {env fwd ops fuel e} (h : rRun env fwd ops fuel = some (.error e)) :
    ∃ st, (RStar.init env fwd 5 15 5 5 1000).run ops = some st ∧ st.replan (fun _ => false) fuel = .error e := by
  unfold rRun at h
  cases q : (RStar.init env fwd 5 15 5 5 1000).run ops with
  | none => rw [q] at h; cases h
  | some st =>
    rw [q] at h
    simp only [Option.map_some, Option.some.injEq] at h
    split at h
    next hr => cases h; exact ⟨st, rfl, hr⟩
    · cases h

/-- a success with the given path and cost -/
def isSol (x : Option (Except RErr RStar.Result)) (p : List Nat) (c : Nat) : Bool :=
  match x with
  | some (.ok r) => r.found && r.path == p && r.cost == c
  | _ => false

/-- a normal return without a solution -/
def isFail (x : Option (Except RErr RStar.Result)) : Bool :=
  match x with
  | some (.ok r) => !r.found
  | _ => false

def isErr (x : Option (Except RErr RStar.Result)) (e : RErr) : Bool :=
  match x with
  | some (.error e') => decide (e' = e)
  | _ => false

theorem isSol_some {env fwd ops fuel p c} (h : isSol (rRun env fwd ops fuel) p c = true) :
    ∃ st st' r, (RStar.init env fwd 5 15 5 5 1000).run ops = some st ∧ st.replan (fun _ => false) fuel = .ok (st', r) ∧ r.found = true ∧ r.path = p ∧ r.cost = c := by
  unfold isSol at h
  split at h
  next r q =>
    obtain ⟨st, st', h1, h2⟩ := rRun_ok q
    simp only [Bool.and_eq_true, beq_iff_eq] at h
    exact ⟨st, st', r, h1, h2, h.1.1, h.1.2, h.2⟩
  next => cases h

theorem isFail_some {env fwd ops fuel} (h : isFail (rRun env fwd ops fuel) = true) :
    ∃ st st' r, (RStar.init env fwd 5 15 5 5 1000).run ops = some st ∧ st.replan (fun _ => false) fuel = .ok (st', r) ∧ r.found = false := by
  unfold isFail at h
  split at h
  next r q =>
    obtain ⟨st, st', h1, h2⟩ := rRun_ok q
    exact ⟨st, st', r, h1, h2, by simpa using h⟩
  next => cases h

theorem isErr_some {env fwd ops fuel e} (h : isErr (rRun env fwd ops fuel) e = true) :
    ∃ st, (RStar.init env fwd 5 15 5 5 1000).run ops = some st ∧ st.replan (fun _ => false) fuel = .error e := by
  unfold isErr at h
  split at h
  next e' q =>
    have := of_decide_eq_true h
    subst this
    exact rRun_err q
  next => cases h

/-! ## C96–C100 -/

def exEdges : List (Nat × Nat × Nat) := [(0, 1, 1), (1, 2, 1), (2, 3, 1), (0, 4, 5), (4, 3, 1), (3, 5, 2)]
def exRand (_ s : Nat) : List (Nat × Nat) := if s = 0 then [(4, 1), (3, 1)] else if s = 3 then [(5, 0), (0, 1)] else if s = 5 then [(3, 1)] else []
def exR : REnv := tab exEdges (· == ·) exRand
/-- the same graph with a more expensive edge `1 → 2` -/
def exR' : REnv := tab [(0, 1, 1), (1, 2, 9), (2, 3, 1), (0, 4, 5), (4, 3, 1), (3, 5, 2)] (· == ·) exRand

/-- the history of the examples: a solved problem, then the costs change -/
def exOps : List Op := [.setStart 0, .setGoal 5, .replan (fun _ => false) 60, .costsChanged exR']

theorem exR_ok : REnvOk exR := tab_ok (by decide)
theorem exR'_ok : REnvOk exR' := tab_ok (by decide)
theorem exOps_ok : EnvsOk exOps := by
  intro env h
  simp only [exOps, List.mem_cons, List.not_mem_nil, or_false, reduceCtorEq, false_or, Op.costsChanged.injEq] at h
  rw [h]; exact exR'_ok

/-- C96, backward: the hypotheses are met and the path is a detour in the changed graph. -/
example : ∃ st st' r, (RStar.init exR false 5 15 5 5 1000).run exOps = some st ∧ st.replan (fun _ => false) 60 = .ok (st', r) ∧ r.path = [0, 4, 3, 5] ∧ r.cost = 8 ∧
    FromTo r.path 0 5 ∧ PathCost exR'.succs r.path r.cost := by
  obtain ⟨st, st', r, h1, h2, h3, h4, h5⟩ := isSol_some (env := exR) (fwd := false) (ops := exOps) (fuel := 60) (p := [0, 4, 3, 5]) (c := 8) (by decide +kernel)
  have := rstar_backward_path exR_ok exOps_ok tab_predsIn h1 rfl rfl (by decide) h2 h3
  exact ⟨st, st', r, h1, h2, h4, h5, this.1, this.2⟩

/-- C96 and C99, forward: the returned list is `[4, 3, 5, 5]` for the path `0, 4, 3, 5`. -/
example : ∃ st st' r, (RStar.init exR true 5 15 5 5 1000).run exOps = some st ∧ st.replan (fun _ => false) 60 = .ok (st', r) ∧ r.path = [4, 3, 5, 5] ∧ r.cost = 8 ∧
    (∃ l, r.path = l ++ [5] ∧ FromTo (0 :: l) 0 5 ∧ PathCost exR'.succs (0 :: l) r.cost ∧ l.head? ≠ some 0) ∧ ¬ FromTo r.path 0 5 := by
  obtain ⟨st, st', r, h1, h2, h3, h4, h5⟩ := isSol_some (env := exR) (fwd := true) (ops := exOps) (fuel := 60) (p := [4, 3, 5, 5]) (c := 8) (by decide +kernel)
  exact ⟨st, st', r, h1, h2, h4, h5, rstar_forward_path exR_ok exOps_ok h1 rfl rfl (by decide) h2 h3,
    (rstar_forward_not_from_start exR_ok exOps_ok h1 rfl rfl (by decide) h2 h3).1⟩

theorem exR'_small {fwd : Bool} {s : Nat} (h : s ∈ [0, 1, 2, 3, 4, 5]) : Small exR' fwd s :=
  tab_small [0, 1, 2, 3, 4, 5] 9 h (by decide) (by decide)

/-- C97, C98: the hypotheses are met (the run is the one above). -/
example {e : RErr} {st : RStar} {clk : Nat → Bool} {fuel : Nat} (h1 : (RStar.init exR false 5 15 5 5 1000).run exOps = some st) (h2 : st.replan clk fuel = .error e) :
    (e = .heap .full ∨ e = .noTermination) ∧ (e ≠ .nullState ∧ e ≠ .nullAct ∧ e ≠ .freed) :=
  ⟨rstar_no_exception exR_ok exOps_ok h1 rfl rfl (by decide) tab_id (exR'_small (by decide)) h2, rstar_memory_safe exR_ok exOps_ok h1 rfl rfl (by decide) h2⟩

/-- C100: start = goal ends in a null pointer. -/
example : ∃ st, (RStar.init exR true 5 15 5 5 1000).run [.setStart 0, .setGoal 0] = some st ∧ st.replan (fun _ => false) 60 = .error .nullAct := by
  exact isErr_some (by decide +kernel)

/-! ## C101: incompleteness -/

/-- 1 is a dead end; 2 leads to the goal 3, and both are offered as random successors -/
def deadEdges : List (Nat × Nat × Nat) := [(0, 1, 1), (0, 2, 10), (2, 3, 1)]
def deadRand (_ s : Nat) : List (Nat × Nat) := if s = 0 then [(1, 1), (2, 10)] else if s = 1 then [(3, 1)] else if s = 2 then [(3, 1)] else []

/-- **C101 (refuted expectation).**  Without any time limit `replan` may report failure although the goal is reachable and
every state of a solution is offered by GetRandomSuccsatDistance (start 0 offers 2, and 2 offers the goal 3). -/
theorem rstar_incomplete : ∃ env : REnv, REnvOk env ∧ IdEquiv env ∧ (∀ a b, env.h a b = 0) ∧ PathCost env.succs [0, 2, 3] 11 ∧
    (∀ n, (2, 10) ∈ env.randS n 0 ∧ (3, 1) ∈ env.randS n 2) ∧
    ∃ st st' r, (RStar.init env true 5 15 5 5 1000).run [.setStart 0, .setGoal 3] = some st ∧ st.replan (fun _ => false) 60 = .ok (st', r) ∧ r.found = false := by
  refine ⟨tab deadEdges (· == ·) deadRand, tab_ok (by decide), tab_id, fun _ _ => rfl, ?_, fun _ => ⟨by simp [tab, deadRand], by simp [tab, deadRand]⟩, isFail_some (by decide +kernel)⟩
  exact .cons (tab_succs.mpr (by decide)) (.cons (c := 1) (n := 0) (tab_succs.mpr (by decide)) (.single 3))

/-! ## C102: exceptions when AreEquivalent is coarser than the identity -/

def eqEdges : List (Nat × Nat × Nat) := [(0, 6, 9), (6, 1, 1), (1, 5, 10), (0, 4, 1), (4, 1, 1), (4, 3, 5)]
/-- states 1 and 3 are equivalent -/
def eqRel (a b : Nat) : Bool := a == b || (a == 1 && b == 3) || (a == 3 && b == 1)
def eqRand (n s : Nat) : List (Nat × Nat) :=
  if s = 0 then [(6, 1), (4, 15)] else if s = 6 then [(1, 1)] else if s = 1 ∧ n < 3 then [(5, 1)] else if s = 4 then [(3, 1)] else []

/-- **C102 (refuted expectation).**  With an AreEquivalent that is an equivalence relation but relates two different states,
`replan` may throw an exception from the path extraction although it has found a solution. -/
theorem rstar_equiv_exception : ∃ env : REnv, REnvOk env ∧ (∀ a, env.equiv a a = true) ∧ (∀ a b, env.equiv a b = env.equiv b a) ∧
    (∀ a b c, env.equiv a b = true → env.equiv b c = true → env.equiv a c = true) ∧
    ∃ st, (RStar.init env true 5 15 5 5 1000).run [.setStart 0, .setGoal 5] = some st ∧ st.replan (fun _ => false) 60 = .error .clowMismatch := by
  refine ⟨tab eqEdges eqRel eqRand, tab_ok (by decide), ?_, ?_, ?_, isErr_some (by decide +kernel)⟩
  · intro a; simp [tab, eqRel]
  · intro a b
    simp only [tab, eqRel]
    rw [Bool.eq_iff_iff]; simp; omega
  · intro a b c h1 h2
    simp only [tab, eqRel, Bool.or_eq_true, Bool.and_eq_true, beq_iff_eq] at h1 h2 ⊢
    omega

end Sbpl.RStarProps
