import Verif.Proofs.RStarExc
import Verif.Spec.RStar
/-!
# Properties of `RSTARPlanner` over arbitrary histories of interface calls (C96–C100)

In the theorems a planner is constructed on environment `env0`, an arbitrary list `ops` of interface calls is made - edge
costs may change at any time - and then `replan` is called.  The random successors, the clock (`clk`) and AreEquivalent are
arbitrary functions unless a hypothesis restricts them.
-/

namespace Sbpl.RStarProps
open GraphSpec RStar RStarSpec

section
variable {env0 : REnv} {fwd : Bool} {D ini dec fin thr : Nat} {ops : List Op} {st : RStar} {clk : Nat → Bool} {fuel a b : Nat}

/-- the planner's bookkeeping of what the caller has set -/
theorem run_ids : ∀ {ops : List Op} {st st' : RStar}, (∀ env, Op.costsChanged env ∈ ops → EnvPos env) → RBase st → EnvPos st.env → st.run ops = some st' →
    st'.env = lastEnv st.env ops ∧ (if st.fwd then st'.start else st'.goal) = (lastStart ops).or (if st.fwd then st.start else st.goal) ∧
      (if st.fwd then st'.goal else st'.start) = (lastGoal ops).or (if st.fwd then st.goal else st.start)
  | [], st, st', _, _, _, e => by cases e; exact ⟨rfl, rfl, rfl⟩
  | op :: ops, st, st', hp, b, p, e => by
    have hp' : ∀ env, Op.costsChanged env ∈ ops → EnvPos env := fun env q => hp env (List.mem_cons_of_mem _ q)
    unfold run at e
    cases hs : st.step op with
    | none => rw [hs] at e; cases e
    | some st1 =>
      have hone : ∀ env, Op.costsChanged env ∈ [op] → EnvPos env := fun env q => by
        rw [List.mem_singleton] at q; rw [← q] at hp; exact hp env List.mem_cons_self
      obtain ⟨b1, p1, f1⟩ := run_base (ops := [op]) (st' := st1) hone b p (by unfold run; rw [hs]; rfl)
      rw [hs] at e
      have ih := run_ids hp' b1 p1 e
      rw [f1] at ih
      cases op with
      | setStart s =>
        cases hs
        have key : (setStart st s).env = st.env ∧ (if st.fwd then (setStart st s).start else (setStart st s).goal) = some s ∧
            (if st.fwd then (setStart st s).goal else (setStart st s).start) = (if st.fwd then st.goal else st.start) := by
          unfold setStart setSearchStart setSearchGoal
          by_cases hf : st.fwd = true
          · simp only [if_pos hf]; split
            next q => exact ⟨rfl, q, rfl⟩
            next => exact ⟨rfl, rfl, rfl⟩
          · simp only [if_neg hf]; split
            next q => exact ⟨rfl, q, rfl⟩
            next => exact ⟨rfl, rfl, rfl⟩
        rw [key.1, key.2.1, key.2.2] at ih
        refine ⟨ih.1, ?_, ih.2.2⟩
        show _ = ((lastStart ops).or (some s)).or _
        rw [ih.2.1, Option.or_assoc]; rfl
      | setGoal s =>
        cases hs
        have key : (setGoal st s).env = st.env ∧ (if st.fwd then (setGoal st s).goal else (setGoal st s).start) = some s ∧
            (if st.fwd then (setGoal st s).start else (setGoal st s).goal) = (if st.fwd then st.start else st.goal) := by
          unfold setGoal setSearchStart setSearchGoal
          by_cases hf : st.fwd = true
          · simp only [if_pos hf]; split
            next q => exact ⟨rfl, q, rfl⟩
            next => exact ⟨rfl, rfl, rfl⟩
          · simp only [if_neg hf]; split
            next q => exact ⟨rfl, q, rfl⟩
            next => exact ⟨rfl, rfl, rfl⟩
        rw [key.1, key.2.1, key.2.2] at ih
        refine ⟨ih.1, ih.2.1, ?_⟩
        show _ = ((lastGoal ops).or (some s)).or _
        rw [ih.2.2, Option.or_assoc]; rfl
      | costsChanged env => cases hs; exact ih
      | forceScratch => cases hs; exact ih
      | setMode f => cases hs; exact ih
      | setParams i d t => cases hs; exact ih
      | replan clk fuel =>
        have key : st1.env = st.env ∧ st1.start = st.start ∧ st1.goal = st.goal := by
          cases hr : st.replan clk fuel with
          | error x => simp only [step, hr] at hs; cases hs
          | ok r =>
            obtain ⟨st2, res⟩ := r
            simp only [step, hr] at hs
            cases hs
            cases h1 : st.start with
            | none => unfold replan at hr; rw [h1] at hr; cases hr
            | some s0 =>
              cases h2 : st.goal with
              | none => unfold replan at hr; rw [h1, h2] at hr; cases hr
              | some gl =>
                have := replan_post (clk := clk) (fuel := fuel) b h1 h2 p.nbr
                rw [hr] at this
                obtain ⟨_, a2, _, a4, a5, _⟩ := this
                exact ⟨a2, by rw [a4, h1], by rw [a5, h2]⟩
        rw [key.1, key.2.1, key.2.2] at ih
        exact ih

theorem pos_of {env : REnv} (h : REnvOk env) : EnvPos env := ⟨h.posS, h.posP⟩

/-- what is known before the call of `replan` -/
theorem hist (h0 : REnvOk env0) (hE : EnvsOk ops) (hrun : (RStar.init env0 fwd D ini dec fin thr).run ops = some st) (hs : lastStart ops = some a)
    (hg : lastGoal ops = some b) : RBase st ∧ st.fwd = fwd ∧ st.env = lastEnv env0 ops ∧ st.start = some (if fwd then a else b) ∧ st.goal = some (if fwd then b else a) ∧
      ∀ s t c, (t, c) ∈ nbr st.env st.fwd s → 1 ≤ c := by
  have hE' : ∀ env, Op.costsChanged env ∈ ops → EnvPos env := fun env q => pos_of (hE env q)
  obtain ⟨q1, q2, q3⟩ := run_base hE' (init_base env0 fwd D ini dec fin thr) (pos_of h0) hrun
  obtain ⟨r1, r2, r3⟩ := run_ids hE' (init_base env0 fwd D ini dec fin thr) (pos_of h0) hrun
  have q3 : st.fwd = fwd := q3
  refine ⟨q1, q3, r1, ?_, ?_, q2.nbr⟩
  · rw [hs] at r2; rw [hg] at r3
    have r2 : (if fwd then st.start else st.goal) = some a := by cases fwd <;> exact r2
    have r3 : (if fwd then st.goal else st.start) = some b := by cases fwd <;> exact r3
    cases fwd
    · exact r3
    · exact r2
  · rw [hs] at r2; rw [hg] at r3
    have r2 : (if fwd then st.start else st.goal) = some a := by cases fwd <;> exact r2
    have r3 : (if fwd then st.goal else st.start) = some b := by cases fwd <;> exact r3
    cases fwd
    · exact r2
    · exact r3

theorem lastEnv_ok : ∀ {ops : List Op} {env : REnv}, REnvOk env → EnvsOk ops → REnvOk (lastEnv env ops)
  | [], _, h, _ => h
  | op :: ops, env, h, hE => by
    have hE' : EnvsOk ops := fun e q => hE e (List.mem_cons_of_mem _ q)
    cases op with
    | costsChanged e => exact lastEnv_ok (ops := ops) (hE e List.mem_cons_self) hE'
    | _ => exact lastEnv_ok (ops := ops) h hE'

/-- **C96, backward search.**  After any history, if `replan` reports success then the returned list is a path from the
start to the goal in the current graph (any graph that has the edges listed by GetPreds), and the reported cost is the sum
of its edge costs. -/
theorem rstar_backward_path {st' : RStar} {r : RStar.Result} {E : Nat → List (Nat × Nat)} (h0 : REnvOk env0) (hE : EnvsOk ops) (hd : PredsIn (lastEnv env0 ops) E)
    (hrun : (RStar.init env0 false D ini dec fin thr).run ops = some st) (hs : lastStart ops = some a) (hg : lastGoal ops = some b) (hab : a ≠ b)
    (hr : st.replan clk fuel = .ok (st', r)) (hf : r.found = true) :
    FromTo r.path a b ∧ PathCost E r.path r.cost := by
  obtain ⟨q1, q2, q3, q4, q5, q6⟩ := hist h0 hE hrun hs hg
  have := replan_post (clk := clk) (fuel := fuel) q1 q4 q5 q6
  rw [hr] at this
  obtain ⟨_, _, _, _, _, w1, w2, w3⟩ := this
  have hlt : r.cost < INFINITECOST := Nat.lt_of_le_of_ne w2 (w3.mp hf)
  obtain ⟨L, u1, u2, u3, u4⟩ := w1 hab hlt
  have u1 : PathCost (nbr st.env st.fwd) (b :: L.reverse) r.cost := u1
  have u2 : (b :: L.reverse).getLast? = some a := u2
  have u4 : r.path = (if st.fwd then L.reverse ++ [a] else L ++ [b]) := u4
  rw [q2] at u4
  have u4 : r.path = (b :: L.reverse).reverse := by rw [u4]; simp
  rw [q3, q2] at u1
  have u5 := pathCost_reverse (fun s t c h => hd s t c h) u1
  rw [u4]
  refine ⟨⟨by rw [List.head?_reverse]; exact u2, by rw [List.getLast?_reverse]; rfl⟩, u5⟩

/-- **C96, forward search.**  After any history, if `replan` reports success then the returned list is `l ++ [goal]`
where the start state followed by `l` is a path from the start to the goal in the current graph, and the reported cost is
the sum of its edge costs. -/
theorem rstar_forward_path {st' : RStar} {r : RStar.Result} (h0 : REnvOk env0) (hE : EnvsOk ops)
    (hrun : (RStar.init env0 true D ini dec fin thr).run ops = some st) (hs : lastStart ops = some a) (hg : lastGoal ops = some b) (hab : a ≠ b)
    (hr : st.replan clk fuel = .ok (st', r)) (hf : r.found = true) :
    ∃ l, r.path = l ++ [b] ∧ FromTo (a :: l) a b ∧ PathCost (lastEnv env0 ops).succs (a :: l) r.cost ∧ l.head? ≠ some a := by
  obtain ⟨q1, q2, q3, q4, q5, q6⟩ := hist h0 hE hrun hs hg
  have := replan_post (clk := clk) (fuel := fuel) q1 q4 q5 q6
  rw [hr] at this
  obtain ⟨_, _, _, _, _, w1, w2, w3⟩ := this
  have hlt : r.cost < INFINITECOST := Nat.lt_of_le_of_ne w2 (w3.mp hf)
  obtain ⟨L, u1, u2, u3, u4⟩ := w1 (Ne.symm hab) hlt
  have u1 : PathCost (nbr st.env st.fwd) (a :: L.reverse) r.cost := u1
  have u2 : (a :: L.reverse).getLast? = some b := u2
  have u4 : r.path = (if st.fwd then L.reverse ++ [b] else L ++ [a]) := u4
  rw [q2] at u4
  rw [q3, q2] at u1
  exact ⟨L.reverse, u4, ⟨rfl, u2⟩, u1, by rw [List.head?_reverse]; exact u3⟩

/-- **C97.**  Whatever the environment's AreEquivalent and random successors and the clock are: with distinct start and
goal, no history of calls makes `replan` dereference a null pointer or read an action that was deleted. -/
theorem rstar_memory_safe {e : RErr} (h0 : REnvOk env0) (hE : EnvsOk ops)
    (hrun : (RStar.init env0 fwd D ini dec fin thr).run ops = some st) (hs : lastStart ops = some a) (hg : lastGoal ops = some b) (hab : a ≠ b)
    (hr : st.replan clk fuel = .error e) : e ≠ .nullState ∧ e ≠ .nullAct ∧ e ≠ .freed := by
  obtain ⟨q1, q2, q3, q4, q5, q6⟩ := hist h0 hE hrun hs hg
  have := replan_post (clk := clk) (fuel := fuel) q1 q4 q5 q6
  rw [hr] at this
  have hne : (if fwd then b else a) ≠ (if fwd then a else b) := by cases fwd; exact hab; exact Ne.symm hab
  rcases this with h | h | h | h | ⟨_, h⟩
  · rw [h]; exact ⟨nofun, nofun, nofun⟩
  · rw [h]; exact ⟨nofun, nofun, nofun⟩
  · rw [h]; exact ⟨nofun, nofun, nofun⟩
  · rw [h]; exact ⟨nofun, nofun, nofun⟩
  · exact absurd h hne

/-- **C98.**  If AreEquivalent is the identity and the graph is small enough for its path costs to stay below
INFINITECOST, `replan` raises no exception at all (other than a full heap; `noTermination` only says that the number of
loop iterations allowed in the model was too small). -/
theorem rstar_no_exception {e : RErr} (h0 : REnvOk env0) (hE : EnvsOk ops)
    (hrun : (RStar.init env0 fwd D ini dec fin thr).run ops = some st) (hs : lastStart ops = some a) (hg : lastGoal ops = some b) (hab : a ≠ b)
    (hid : IdEquiv (lastEnv env0 ops)) (hsm : Small (lastEnv env0 ops) fwd (if fwd then a else b))
    (hr : st.replan clk fuel = .error e) : e = .heap .full ∨ e = .noTermination := by
  obtain ⟨q1, q2, q3, q4, q5, q6⟩ := hist h0 hE hrun hs hg
  have hne : (if fwd then b else a) ≠ (if fwd then a else b) := by cases fwd; exact hab; exact Ne.symm hab
  obtain ⟨V, C, v1, v2, v3⟩ := hsm
  refine replan_noexc q1 q4 q5 hne q6 ⟨v1, ?_, v3⟩ (by rw [q3]; exact hid) hr
  rw [q3, q2]; exact v2

/-- **C99 (refuted expectation).**  A path returned by a forward search never begins with the start state: its first
entry is the second state of the path, and its last two entries are both the goal. -/
theorem rstar_forward_not_from_start {st' : RStar} {r : RStar.Result} (h0 : REnvOk env0) (hE : EnvsOk ops)
    (hrun : (RStar.init env0 true D ini dec fin thr).run ops = some st) (hs : lastStart ops = some a) (hg : lastGoal ops = some b) (hab : a ≠ b)
    (hr : st.replan clk fuel = .ok (st', r)) (hf : r.found = true) :
    ¬ FromTo r.path a b ∧ ∃ p, r.path = p ++ [b, b] := by
  obtain ⟨l, h1, h2, h3, h4⟩ := rstar_forward_path h0 hE hrun hs hg hab hr hf
  cases l with
  | nil => have := h2.2; simp at this; exact absurd this hab
  | cons x l =>
    refine ⟨fun h => ?_, ?_⟩
    · have := h.1
      rw [h1] at this
      exact h4 this
    · have hl : (x :: l).getLast? = some b := by have := h2.2; rw [List.getLast?_cons_cons] at this; exact this
      obtain ⟨p, hp⟩ := List.getLast?_eq_some_iff.mp hl
      exact ⟨p, by rw [h1, hp]; simp⟩

/-- **C100 (refuted expectation).**  If the start is the goal, `replan` never returns (unless its time limit is over
before it begins): it dereferences a null pointer, or the heap is full, or it runs forever. -/
theorem rstar_start_is_goal (h0 : REnvOk env0) (hE : EnvsOk ops) (hrun : (RStar.init env0 fwd D ini dec fin thr).run ops = some st)
    (hs : lastStart ops = some a) (hg : lastGoal ops = some a) (hid : IdEquiv (lastEnv env0 ops)) (hsm : Small (lastEnv env0 ops) fwd a) (hK : clk 0 = false) :
    ∃ e, st.replan clk fuel = .error e ∧ (e = .nullAct ∨ e = .heap .full ∨ e = .noTermination) := by
  obtain ⟨q1, q2, q3, q4, q5, q6⟩ := hist h0 hE hrun hs hg
  obtain ⟨V, C, v1, v2, v3⟩ := hsm
  have e1 : (if fwd then a else a) = a := by cases fwd <;> rfl
  rw [e1] at q4 q5
  exact replan_null q1 q4 q5 q6 ⟨v1, by rw [q3, q2]; exact v2, v3⟩ (by rw [q3]; exact hid) hK

end
end Sbpl.RStarProps
