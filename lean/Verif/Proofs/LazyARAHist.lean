import Verif.Proofs.LazyARARun
/-! Lazy ARA*: arbitrary histories of interface calls. -/

namespace Sbpl.LazyARA
open LazySpec Heap

variable {wf : (LazyElem → Nat) → List LazyElem → Prop}

theorem posN {st : LazyARA} (h : LEnvOk st.env) : ∀ p s c f, (s, c, f) ∈ st.nbr p → 1 ≤ c := by
  intro p s c f hm
  unfold nbr at hm
  split at hm
  · exact h.posS _ _ _ _ hm
  · exact h.posP _ _ _ _ hm

theorem Hist.search {st st' : LazyARA} (h : Hist st) (f : FrS { st with num := st.num + 1 } st') (b : BP st'.heap) : Hist st' := by
  refine ⟨b, ?_⟩
  intro s
  have hn : st'.num = st.num + 1 := f.num
  rcases f.rnE s with e | e
  · have e : st'.rn s = st.rn s := e
    rw [e, hn]
    have := h.rn s
    omega
  · have e : st'.rn s = st.num + 1 := e
    rw [e, hn]
    exact .inl (Nat.le_refl _)

theorem freeMemory_hist {st : LazyARA} (h : Hist st) : Hist st.freeMemory := by
  obtain ⟨_, _, m3, _⟩ := makeEmpty_spec h.bp
  refine ⟨⟨?_, ?_⟩, fun _ => .inr rfl⟩
  · intro i h1 h2
    have h2 : i ≤ st.heap.makeEmpty.size := h2
    omega
  · intro s hs; exact absurd rfl hs

theorem init_hist (env : LEnv) (Q : LQueue) (fwd : Bool) (D a b c : Nat) (f : Bool) : Hist (init env Q fwd D a b c f) := by
  refine ⟨⟨?_, ?_⟩, fun _ => .inr rfl⟩
  · intro i h1 h2
    simp [init, Heap.mk0] at h2
    omega
  · intro s hs; exact absurd rfl hs

/-- start and goal as the user sees them -/
def userIds (st : LazyARA) : Option Nat × Option Nat := if st.fwd then (st.startId, st.goalId) else (st.goalId, st.startId)

theorem replan_none {st : LazyARA} {bs : List Nat} (h : st.userIds.1 = none ∨ st.userIds.2 = none) :
    st.replan bs = .ok (st, ⟨false, [], 0, none, []⟩) := by
  unfold userIds at h
  unfold replan
  cases hg : st.goalId with
  | none => rfl
  | some g =>
    cases hs : st.startId with
    | none => rfl
    | some s =>
      rw [hg, hs] at h
      split at h <;> simp at h

/-- the search is from the user's start to the user's goal, whatever the direction -/
theorem replan_some {st : LazyARA} {bs : List Nat} {a b : Nat} (h : st.userIds = (some a, some b)) :
    st.replan bs = (match st.search bs a b with
      | .error e => .error e
      | .ok (st1, r) => .ok ({ st1 with startId := none, goalId := none }, r)) := by
  unfold userIds at h
  unfold replan
  cases hf : st.fwd with
  | true =>
    rw [hf] at h
    simp only [if_true, Prod.mk.injEq] at h
    rw [h.1, h.2]; rfl
  | false =>
    rw [hf] at h
    simp only [Bool.false_eq_true, if_false, Prod.mk.injEq] at h
    rw [h.1, h.2]; rfl

/-- the parameters in use -/
def pars (st : LazyARA) : Params := (st.initEps, st.finalEps, st.decEps, st.first)

structure RunInv (st : LazyARA) (ops : List Op) (st' : LazyARA) : Prop where
  hist : Hist st'
  num : st'.num ≤ st.num + replans ops
  Q : st'.Q = st.Q
  fwd : st'.fwd = st.fwd
  D : st'.D = st.D
  env : st'.env = lastEnv st.env ops
  ids : st'.userIds = ids ops st.userIds
  pars : st'.pars = lastParams st.pars ops

theorem run_spec (ops : List Op) : ∀ {st st' : LazyARA}, QueueOk st.Q wf → Hist st → LEnvOk st.env → AllEnv LEnvOk ops → FewPasses ops →
    GoalsZero st.fwd st.env st.userIds ops → st.num + replans ops < SHORT - 1 → run st ops = some st' → RunInv st ops st' := by
  induction ops with
  | nil =>
    intro st st' _ h _ _ _ _ _ e
    cases e
    exact ⟨h, Nat.le_refl _, rfl, rfl, rfl, rfl, rfl, rfl⟩
  | cons op ops ih =>
    intro st st' q h eo ae fp gz nm e
    have ae' : AllEnv LEnvOk ops := fun o ho => ae o (List.mem_cons_of_mem _ ho)
    have fp' : FewPasses ops := fun o ho => fp o (List.mem_cons_of_mem _ ho)
    unfold run at e
    cases op with
    | setStart s =>
      simp only [call] at e
      have u : (st.setStart s).userIds = (some s, st.userIds.2) := by unfold setStart userIds; cases st.fwd <;> rfl
      have i := ih (st := st.setStart s) (by unfold setStart; split <;> exact q) (by unfold setStart; split <;> exact ⟨h.bp, h.rn⟩)
        (by unfold setStart; split <;> exact eo) ae' fp'
        (by rw [u]; unfold setStart; split <;> exact gz) (by unfold setStart; split <;> exact nm) e
      refine ⟨i.hist, ?_, ?_, ?_, ?_, ?_, ?_, ?_⟩
      · have := i.num; unfold setStart at this; split at this <;> exact this
      · have := i.Q; unfold setStart at this; split at this <;> exact this
      · have := i.fwd; unfold setStart at this; split at this <;> exact this
      · have := i.D; unfold setStart at this; split at this <;> exact this
      · have := i.env; unfold setStart at this; split at this <;> exact this
      · have := i.ids; rw [u] at this; exact this
      · have := i.pars; unfold setStart at this; split at this <;> exact this
    | setGoal s =>
      simp only [call] at e
      have u : (st.setGoal s).userIds = (st.userIds.1, some s) := by unfold setGoal userIds; cases st.fwd <;> rfl
      have i := ih (st := st.setGoal s) (by unfold setGoal; split <;> exact q) (by unfold setGoal; split <;> exact ⟨h.bp, h.rn⟩)
        (by unfold setGoal; split <;> exact eo) ae' fp'
        (by rw [u]; unfold setGoal; split <;> exact gz) (by unfold setGoal; split <;> exact nm) e
      refine ⟨i.hist, ?_, ?_, ?_, ?_, ?_, ?_, ?_⟩
      · have := i.num; unfold setGoal at this; split at this <;> exact this
      · have := i.Q; unfold setGoal at this; split at this <;> exact this
      · have := i.fwd; unfold setGoal at this; split at this <;> exact this
      · have := i.D; unfold setGoal at this; split at this <;> exact this
      · have := i.env; unfold setGoal at this; split at this <;> exact this
      · have := i.ids; rw [u] at this; exact this
      · have := i.pars; unfold setGoal at this; split at this <;> exact this
    | setEnv env =>
      simp only [call] at e
      have i := ih (st := { st with env := env }) q ⟨h.bp, h.rn⟩ (ae _ List.mem_cons_self env rfl) ae' fp' gz nm e
      exact ⟨i.hist, i.num, i.Q, i.fwd, i.D, i.env, i.ids, i.pars⟩
    | freeMemory =>
      simp only [call] at e
      have i := ih (st := st.freeMemory) q (freeMemory_hist h) eo ae' fp' gz nm e
      exact ⟨i.hist, i.num, i.Q, i.fwd, i.D, i.env, i.ids, i.pars⟩
    | setParams a b c d =>
      simp only [call] at e
      have i := ih (st := st.setParams a b c d) q ⟨h.bp, h.rn⟩ eo ae' fp' gz nm e
      exact ⟨i.hist, i.num, i.Q, i.fwd, i.D, i.env, i.ids, i.pars⟩
    | replan bs =>
      have nm : st.num + (replans ops + 1) < SHORT - 1 := nm
      have fin : st.replan bs = .ok (st, ⟨false, [], 0, none, []⟩) → GoalsZero st.fwd st.env st.userIds ops →
          LazySpec.ids (.replan bs :: ops) st.userIds = LazySpec.ids ops st.userIds → RunInv st (.replan bs :: ops) st' := by
        intro hr gz' hi
        simp only [call, hr] at e
        have i := ih q h eo ae' fp' gz' (by omega) e
        refine ⟨i.hist, ?_, i.Q, i.fwd, i.D, i.env, ?_, i.pars⟩
        · have := i.num
          show _ ≤ _ + (replans ops + 1)
          omega
        · rw [hi]; exact i.ids
      rcases hu : st.userIds with ⟨ua, ub⟩
      rw [hu] at gz fin
      cases ua with
      | none =>
        have hr := replan_none (st := st) (bs := bs) (.inl (by rw [hu]))
        have i := fin hr (by cases ub <;> exact gz) (by cases ub <;> rfl)
        exact i
      | some a =>
        cases ub with
        | none => exact fin (replan_none (st := st) (bs := bs) (.inr (by rw [hu]))) gz rfl
        | some b =>
          have hr := replan_some (bs := bs) hu
          simp only [call, hr] at e
          have hg : st.hPre b = 0 := gz.1
          have sp := search_spec (s0 := a) (gl := b) (bs := bs) q (posN eo) h (by omega) (fp _ List.mem_cons_self bs rfl) hg
          cases es : st.search bs a b with
          | error x => rw [es] at e; cases e
          | ok r =>
            rw [es] at e sp
            obtain ⟨st1, r⟩ := r
            have sp : SearchPost st a b bs (st1, r) := sp
            simp only at e
            have f := sp.frs
            simp only at f
            have h1 : Hist st1 := h.search f sp.bp
            have un : ({ st1 with startId := none, goalId := none } : LazyARA).userIds = (none, none) := by unfold userIds; cases st1.fwd <;> rfl
            have fE : st1.env = st.env := f.env
            have fF : st1.fwd = st.fwd := f.fwd
            have fN : st1.num = st.num + 1 := f.num
            have i := ih (st := { st1 with startId := none, goalId := none }) (by show QueueOk st1.Q wf; rw [f.Q]; exact q) ⟨h1.bp, h1.rn⟩
              (by show LEnvOk st1.env; rw [fE]; exact eo) ae' fp'
              (by rw [un]; show GoalsZero st1.fwd st1.env _ _; rw [fE, fF]; exact gz.2)
              (by show st1.num + _ < _; rw [fN]; omega) e
            refine ⟨i.hist, ?_, i.Q.trans f.Q, i.fwd.trans f.fwd, i.D.trans f.D, ?_, ?_, ?_⟩
            · have := i.num
              have e1 : ({ st1 with startId := none, goalId := none } : LazyARA).num = st.num + 1 := fN
              rw [e1] at this
              show _ ≤ _ + (replans ops + 1)
              omega
            · have := i.env
              have e1 : ({ st1 with startId := none, goalId := none } : LazyARA).env = st.env := fE
              rw [e1] at this
              exact this
            · have := i.ids
              rw [un] at this
              rw [hu]; exact this
            · have := i.pars
              have e1 : ({ st1 with startId := none, goalId := none } : LazyARA).pars = st.pars := by
                show (st1.initEps, st1.finalEps, st1.decEps, st1.first) = _
                rw [f.initEps, f.finalEps, f.decEps, f.first]; rfl
              rw [e1] at this
              exact this

end Sbpl.LazyARA
