import Verif.Proofs.XYTEdge
/-! # `EnvironmentNAVXYTHETALAT`: costs, start and goal along a history -/

namespace Sbpl.XEnv
open StateTable XCfg XSpec UtilsSpec

/-- costs, start and goal -/
def triple (st : XEnv) : (Int → Int → Nat) × XKey × XKey := (st.cfg.grid, st.cfg.start, st.cfg.goal)

theorem Ext.triple {st st' : XEnv} (e : Ext st st') : st'.triple = st.triple := by unfold XEnv.triple; rw [e.cfg]

theorem step_triple {s : Setup} (ok : SetupOk s) {st st' : XEnv} (i : SInv s st) {op : Op} (hop : CallOk s op) (h : st.step op = some st') :
    st'.triple = (costStep s st.cfg.grid op, startStep s st.cfg.start op, goalStep s st.cfg.goal op) := by
  cases op with
  | getState k =>
    obtain ⟨st1, id, g1, g2, g3, g4, -⟩ := getState_ok i.x (i.stc.inRange.mpr hop)
    simp only [step, g1] at h
    cases h; exact g3.triple
  | getSuccs id =>
    simp only [step] at h
    split at h
    next r hr => cases h; exact (succsBy_ext i (succAct_inRange i.stc) hr).2.triple
    next => cases h
  | getPreds id =>
    simp only [step] at h
    split at h
    next r hr => cases h; exact (predsBy_ext ok i predAct_inRange hr).2.triple
    next => cases h
  | getLazySuccs id =>
    simp only [step] at h
    split at h
    next r hr => cases h; exact (succsBy_ext i (lazySuccAct_inRange i.stc) hr).2.triple
    next => cases h
  | getLazyPreds id =>
    simp only [step] at h
    split at h
    next r hr => cases h; exact (predsBy_ext ok i lazyPredAct_inRange hr).2.triple
    next => cases h
  | getTrueCost a b =>
    simp only [step] at h
    split at h
    · cases h; rfl
    · cases h; rfl
    · cases h
  | pathActions l =>
    simp only [step] at h
    split at h
    next r hr => cases h; exact (pathActions_ext l i hr).2.triple
    next => cases h
  | setStart x y th =>
    obtain ⟨st1, r, g1, g2, g3, e1, e2, n1, n2, n3⟩ := setStart_ok i (x := x) (y := y) hop
    simp only [step, g1] at h
    cases h
    unfold triple startStep poseKey
    dsimp only
    rw [← i.stc.cs, ← i.stc.T]
    have hw := i.stc.within (x := Utils.contXY2Disc x st.cfg.cs) (y := Utils.contXY2Disc y st.cfg.cs)
    cases r with
    | none =>
      rw [n1 rfl, if_neg]
      · rfl
      · rw [← hw, n2.mp rfl]; simp
    | some j =>
      rw [if_pos, (n3 j rfl).2, e1, e2]
      · rfl
      · rw [← hw]
        by_contra hc
        rw [Bool.not_eq_true] at hc
        exact absurd (n2.mpr hc) (by simp)
  | setGoal x y th =>
    obtain ⟨st1, r, g1, g2, g3, e1, e2, n1, n2, n3⟩ := setGoal_ok i (x := x) (y := y) hop
    simp only [step, g1] at h
    cases h
    unfold triple goalStep poseKey
    dsimp only
    rw [← i.stc.cs, ← i.stc.T]
    have hw := i.stc.within (x := Utils.contXY2Disc x st.cfg.cs) (y := Utils.contXY2Disc y st.cfg.cs)
    cases r with
    | none =>
      rw [n1 rfl, if_neg]
      · rfl
      · rw [← hw, n2.mp rfl]; simp
    | some j =>
      rw [if_pos, (n3 j rfl).2, e1, e2]
      · rfl
      · rw [← hw]
        by_contra hc
        rw [Bool.not_eq_true] at hc
        exact absurd (n2.mpr hc) (by simp)
  | updateCost x y v =>
    simp only [step, updateCost] at h
    split at h
    next r hr =>
      cases h
      split_ifs at hr
      cases hr
      rfl
    next => cases h
  | setMap map =>
    simp only [step] at h
    cases h
    unfold triple setMap costStep
    dsimp only
    rw [i.stc.W]; rfl
  | changedPreds cs =>
    simp only [step] at h
    cases h
    obtain ⟨-, h2, -⟩ := changedPreds_ok i.x cs
    rw [h2]; rfl

theorem run_triple {s : Setup} (ok : SetupOk s) : ∀ (ops : List Op) {st st' : XEnv}, SInv s st → (∀ op ∈ ops, CallOk s op) →
    st.run ops = some st' →
    st'.triple = (ops.foldl (costStep s) st.cfg.grid, ops.foldl (startStep s) st.cfg.start, ops.foldl (goalStep s) st.cfg.goal) := by
  intro ops
  induction ops with
  | nil => intro st st' i _ h; simp only [run] at h; cases h; rfl
  | cons op ops ih =>
    intro st st' i hc h
    simp only [run] at h
    split at h
    next => cases h
    next st1 h1 =>
      have t := step_triple ok i (hc op (by simp)) h1
      obtain ⟨a, b⟩ := step_inv ok i (hc op (by simp)) h1
      rw [ih a (fun o ho => hc o (by simp [ho])) h]
      unfold triple at t
      simp only [Prod.mk.injEq] at t
      obtain ⟨t1, t2, t3⟩ := t
      rw [t1, t2, t3]
      rfl

/-- what is known after a history -/
theorem hist_inv {s : Setup} {ops : List Op} {st : XEnv} (h : Hist s ops st) :
    SInv s st ∧ st.cfg.grid = costs s ops ∧ st.cfg.start = startOf s ops ∧ st.cfg.goal = goalOf s ops := by
  obtain ⟨ok, hc, st0, h0, h1⟩ := h
  obtain ⟨i, e1, e2, e3⟩ := init_ok ok h0
  have t := run_triple ok ops i hc h1
  refine ⟨(run_inv ok ops i hc h1).1, ?_⟩
  unfold triple at t
  simp only [Prod.mk.injEq] at t
  obtain ⟨t1, t2, t3⟩ := t
  rw [t1, t2, t3, e1, e2, e3]
  exact ⟨rfl, rfl, rfl⟩

theorem run_append (ops ops' : List Op) (st : XEnv) : st.run (ops ++ ops') = (st.run ops).bind (fun st' => st'.run ops') := by
  induction ops generalizing st with
  | nil => rfl
  | cons op ops ih =>
    simp only [List.cons_append, run]
    cases st.step op with
    | none => rfl
    | some st1 => exact ih st1

theorem hist_append {s : Setup} {ops ops' : List Op} {st st' : XEnv} (h : Hist s ops st) (hc : ∀ op ∈ ops', CallOk s op)
    (hr : st.run ops' = some st') : Hist s (ops ++ ops') st' := by
  obtain ⟨ok, hc0, st0, h0, h1⟩ := h
  refine ⟨ok, ?_, st0, h0, ?_⟩
  · intro op ho
    rcases List.mem_append.mp ho with ho | ho
    · exact hc0 op ho
    · exact hc op ho
  · rw [run_append, h1]; exact hr

end Sbpl.XEnv
