import Verif.Props.ARA
import Verif.Spec.ARAScratch
/-! # ARA*: a search whose start has an infinite heuristic -/

namespace Sbpl.ARA
open GraphSpec Heap PlannerSpec

/-- what re-initialisation leaves: OPEN holds the start only -/
theorem reinitFrom_only {st st' : ARA} {s0 gl : Nat} (d : Data st) (hg : st.goal = some gl) (ne : s0 ≠ gl) (h : st.reinitFrom s0 gl = .ok st') :
    Data st' ∧ st'.acc gl ∧ st'.g gl = INF ∧ (∀ t k, keyOf st'.heap t = some k → k.k0 = (infl st.D st.initEps (st.heur gl s0) : Nat)) ∧
      st'.incons.getFirst = .ok none ∧ st'.epsSat = none ∧ st'.bReeval = false ∧ st'.bNew = true ∧ st'.goal = some gl := by
  unfold reinitFrom at h
  obtain ⟨m, ⟨r⟩⟩ := d.lrel
  obtain ⟨l', el, ⟨r'⟩⟩ := CList.makeEmptyLoop_rel (st.incons.size + 1) r (by rw [r.size]; omega)
  have el' : st.incons.makeEmpty = .ok l' := el
  rw [el'] at h
  simp only at h
  obtain ⟨hb, hn, hz, ho, _⟩ := makeEmpty_spec d.bp
  generalize hst1 : ({ st with
        call := st.call + 1, iter := 0, bNew := true, heap := st.heap.makeEmpty, incons := l',
        eps := st.initEps, epsSat := none } : ARA) = st1 at h
  have lE : ∀ s, l'.elem s = none := by
    intro s
    have := r'.elem_isSome s
    simpa using this
  have na1 : ∀ s, ¬ st1.acc s := by
    intro s h
    rw [← hst1] at h
    have := d.callLe s
    simp only [acc] at h; omega
  have d1 : Data st1 := by
    rw [← hst1]
    exact ⟨hb, ho, ⟨_, ⟨r'⟩⟩, fun s => Nat.le_succ_of_le (d.callLe s), fun s _ => hn s, fun s _ => lE s⟩
  have d2 := touch_data d1 s0
  obtain ⟨n1, n2, n3, n4, n5⟩ := touch_self_new d1 (na1 s0)
  have a2 := touch_acc_iff d1 s0
  obtain ⟨hh2, ll2, cc2, it2, ee2, ff2, gg2, ss2⟩ := touch_heap d1 s0
  have fr2 := touch_frame d1 s0
  generalize st1.touch s0 = st2 at *
  generalize hst3 : ({ st2 with g := upd st2.g s0 0 } : ARA) = st3 at h
  have d3 : Data st3 := by
    rw [← hst3]; exact ⟨d2.bp, d2.ord, d2.lrel, d2.callLe, d2.staleH, d2.staleL⟩
  have a3 : ∀ t, st3.acc t ↔ st2.acc t := by intro t; rw [← hst3]; exact Iff.rfl
  have goal1 : st1.goal = some gl := by rw [← hst1]; exact hg
  have h3 : st3.h s0 = st.heur gl s0 := by
    rw [← hst3]; show st2.h s0 = _
    rw [n4, goal1]
    rw [← hst1]; rfl
  have a4 := touch_acc_iff d3 gl
  have d4 := touch_data d3 gl
  obtain ⟨hh4, ll4, cc4, it4, ee4, ff4, gg4, ss4⟩ := touch_heap d3 gl
  have fr4 := touch_frame d3 gl
  have h4 : (st3.touch gl).h s0 = st.heur gl s0 := by
    obtain ⟨o1, o2, o3, o4, _⟩ := touch_other d3 gl s0 ne
    rw [o3, h3]
  have o4 : (st3.touch gl).g gl = INF := (touch_self_new d3 (by rw [a3, a2]; simp [Ne.symm ne, na1 gl])).1
  generalize st3.touch gl = st4 at *
  have heap4 : st4.heap = st.heap.makeEmpty := by
    rw [hh4, ← hst3]; show st2.heap = _; rw [hh2, ← hst1]
  have inc4 : st4.incons = l' := by
    rw [ll4, ← hst3]; show st2.incons = _; rw [ll2, ← hst1]
  have flds : st4.D = st.D ∧ st4.goal = st.goal ∧ st4.eps = st.initEps ∧ st4.epsSat = none ∧ st4.bNew = true := by
    rw [fr4.D, fr4.goal, fr4.eps, fr4.epsSat, fr4.bNew, ← hst3]
    simp only
    rw [fr2.D, fr2.goal, fr2.eps, fr2.epsSat, fr2.bNew, ← hst1]
    simp
  obtain ⟨k3, k5, ke, k10, k11⟩ := flds
  have none4 : ∀ t, keyOf st4.heap t = none := by intro t; rw [heap4]; exact hn t
  split at h
  · cases h
  next h' e =>
    cases h
    obtain ⟨b1, b2, _, b4, _⟩ := insert_spec d4.bp e
    refine ⟨⟨b1, b4 d4.ord, d4.lrel, d4.callLe, ?_, d4.staleL⟩, (a4 gl).mpr (.inl rfl), o4, ?_, ?_, k10, rfl, k11, by rw [← hg, ← k5]⟩
    · intro t h
      show keyOf h' t = none
      rw [b2]
      by_cases q : t = s0
      · subst q
        exact absurd ((a4 t).mpr (.inr ((a3 t).mpr ((a2 t).mpr (.inl rfl))))) h
      · rw [upd_other _ _ q]; exact none4 t
    · intro t k hk
      change keyOf h' t = some k at hk
      rw [b2] at hk
      by_cases q : t = s0
      · subst q
        rw [upd_same] at hk
        cases hk
        simp only
        rw [k3, ke, h4]
      · rw [upd_other _ _ q, none4] at hk; cases hk
    · show st4.incons.getFirst = _
      rw [inc4]
      exact getFirst_rel r'

/-- if every OPEN key is at least INFINITECOST, a pass does nothing -/
theorem blocked_iter {st : ARA} {gl b : Nat} (d : Data st) (ag : st.acc gl) (hk : ∀ t k, keyOf st.heap t = some k → 1000000000 ≤ k.k0)
    (hi : st.incons.getFirst = .ok none) (hs : st.epsSat = none) (hr : st.bReeval = false) (hn : st.bNew = true) (hg : st.goal = some gl) {st' : ARA} {ret : Nat} {tr : List Nat}
    (h : st.searchIter b = .ok (st', ret, tr)) : st'.g gl = st.g gl ∧ tr = [] := by
  have dec : st.decrease = st := by unfold decrease; rw [hs]; simp
  have new : st.decrease.newIteration = .ok { st with iter := st.iter + 1, bNew := false } := by
    rw [dec]
    unfold newIteration
    rw [if_pos hn]
    show buildLoop (st.incons.size + 1) { st with iter := st.iter + 1, bNew := false } = _
    unfold buildLoop
    simp only [hi]
  obtain ⟨sy, hsy⟩ : ∃ sy : ARA, sy = { st with iter := st.iter + 1, bNew := false } := ⟨_, rfl⟩
  rw [← hsy] at new
  have y1 : sy.bReeval = false := by rw [hsy]; exact hr
  have y2 : sy.goal = some gl := by rw [hsy]; exact hg
  have y3 : sy.acc gl := by rw [hsy]; exact ag
  have y4 : sy.heap = st.heap := by rw [hsy]
  have y5 : sy.g gl = st.g gl := by rw [hsy]
  unfold searchIter at h
  rw [new] at h
  simp only [y1, Bool.false_eq_true, if_false] at h
  unfold improvePath at h
  rw [y2] at h
  have tch : sy.touch gl = sy := by
    unfold touch
    rw [if_neg]
    exact fun h => h y3
  simp only at h
  rw [tch] at h
  have lc : sy.loopCond gl = false := by
    by_contra c
    rw [Bool.not_eq_false] at c
    unfold loopCond at c
    simp only [Bool.and_eq_true, Bool.not_eq_true', decide_eq_true_eq] at c
    obtain ⟨⟨c1, c2⟩, -⟩ := c
    rw [y4] at c1
    have z : st.heap.size ≠ 0 := by
      simpa [Heap.isEmpty] using c1
    unfold minKey Heap.getMinKey at c2
    rw [y4, if_neg z] at c2
    have := hk _ _ (keyOf_exists d z)
    unfold kat at this
    omega
  have il : improveLoop gl b sy = .ok ([], sy) := by
    cases b with
    | zero => rfl
    | succ n => unfold improveLoop; rw [lc]; rfl
  rw [il] at h
  simp only [Except.ok.injEq, Prod.mk.injEq] at h
  obtain ⟨h1, -, h3⟩ := h
  refine ⟨?_, h3.symm⟩
  rw [← h1, ← y5]
  split_ifs <;> rfl

/-- a re-initialised search whose start has an inflated heuristic of at least INFINITECOST finds nothing -/
theorem blocked_replan {st st' : ARA} {s0 gl : Nat} {bs : List Nat} {res : Result} (d : Data st) (hr : st.bReinit = true) (h0 : st.start = some s0) (hg : st.goal = some gl)
    (ne : s0 ≠ gl) (hinf : 1000000000 ≤ infl st.D st.initEps (st.heur gl s0)) (h : st.replan bs = .ok (st', res)) :
    res.found = false ∧ res.path = [] ∧ ∀ tr ∈ res.traces, tr = [] := by
  unfold replan at h
  rw [h0, hg] at h
  simp only at h
  cases e : st.searchProlog gl with
  | error x => rw [e] at h; cases h
  | ok st1 =>
    rw [e] at h
    simp only at h
    have facts : Data st1 ∧ st1.acc gl ∧ st1.g gl = INF ∧ (∀ t k, keyOf st1.heap t = some k → 1000000000 ≤ k.k0) ∧
      st1.incons.getFirst = .ok none ∧ st1.epsSat = none ∧ st1.bReeval = false ∧ st1.bNew = true ∧ st1.goal = some gl := by
      unfold searchProlog at e
      simp only at e
      have key : ∀ sx : ARA, sx.bReinit = true → sx.start = some s0 → sx.goal = some gl → Data sx → sx.D = st.D → sx.initEps = st.initEps → sx.heur = st.heur →
          (if sx.bReinit then sx.reinitSpace else .ok sx) = .ok st1 →
          Data st1 ∧ st1.acc gl ∧ st1.g gl = INF ∧ (∀ t k, keyOf st1.heap t = some k → 1000000000 ≤ k.k0) ∧
          st1.incons.getFirst = .ok none ∧ st1.epsSat = none ∧ st1.bReeval = false ∧ st1.bNew = true ∧ st1.goal = some gl := by
        intro sx x1 x2 x3 x4 x5 x6 x7 x8
        rw [if_pos x1] at x8
        unfold reinitSpace at x8
        rw [x2, x3] at x8
        obtain ⟨q1, q2, q3, q4, q5⟩ := reinitFrom_only x4 x3 ne x8
        exact ⟨q1, q2, q3, fun t k hk => by rw [q4 t k hk, x5, x6, x7]; exact_mod_cast hinf, q5⟩
      by_cases b : st.bReeval = true
      · rw [if_pos b] at e
        exact key (st.reevalH gl) hr h0 hg ⟨d.bp, d.ord, d.lrel, d.callLe, d.staleH, d.staleL⟩ rfl rfl rfl e
      · rw [if_neg b] at e
        exact key st hr h0 hg d rfl rfl rfl e
    obtain ⟨f1, f2, f3, f4, f5, f6, f7, f8, f9⟩ := facts
    cases e2 : searchLoop gl bs st1 with
    | error x => rw [e2] at h; cases h
    | ok r =>
      obtain ⟨st2, trs⟩ := r
      rw [e2] at h
      simp only at h
      have l : st2.g gl = INF ∧ ∀ tr ∈ trs, tr = [] := by
        cases bs with
        | nil =>
          unfold searchLoop at e2
          cases e2
          exact ⟨f3, by simp⟩
        | cons b bs =>
          unfold searchLoop at e2
          split at e2
          · split at e2
            · cases e2
            next st3 ret tr e3 =>
              obtain ⟨g1, g2⟩ := blocked_iter f1 f2 f4 f5 f6 f7 f8 f9 e3
              rw [f3] at g1
              rw [if_pos g1] at e2
              have : (st3, [tr]) = (st2, trs) := by
                split_ifs at e2 <;> exact Except.ok.inj e2
              cases this
              exact ⟨g1, by simpa using g2⟩
          · cases e2
            exact ⟨f3, by simp⟩
      rw [if_pos l.1] at h
      cases h
      exact ⟨rfl, rfl, l.2⟩

/-! ## Histories -/

theorem step_reinit {st st' : ARA} {op : Op} (h : st.step op = some st') :
    (match op with | .replan _ => True | .costsChanged _ => st'.bReinit = true | .forceScratch => st'.bReinit = true | _ => st.bReinit = true → st'.bReinit = true) := by
  have sg : ∀ s, st.bReinit = true → (st.setSearchGoal s).bReinit = true := by
    intro s hb; unfold setSearchGoal; split <;> exact hb
  have ss : ∀ s, st.bReinit = true → (st.setSearchStart s).bReinit = true := by
    intro s hb; unfold setSearchStart; split
    · exact hb
    · rfl
  cases op with
  | setStart s => cases h; intro hb; unfold setStart; split; exact ss s hb; exact sg s hb
  | setGoal s => cases h; intro hb; unfold setGoal; split; exact sg s hb; exact ss s hb
  | costsChanged env => cases h; rfl
  | forceScratch => cases h; rfl
  | setParams a b c d => cases h; exact fun hb => hb
  | replan bs => trivial

theorem run_reinit (ops : List Op) : ∀ {b : Bool} {st st' : ARA}, st.run ops = some st' → (b = true → st.bReinit = true) → PlannerSpec.scratch b ops = true → st'.bReinit = true := by
  induction ops with
  | nil => intro b st st' h hb hs; cases h; exact hb hs
  | cons op ops ih =>
    intro b st st' h hb hs
    unfold run at h
    cases e1 : st.step op with
    | none => rw [e1] at h; cases h
    | some st1 =>
      rw [e1] at h
      have := step_reinit e1
      cases op with
      | setStart s => exact ih h (fun q => this (hb q)) hs
      | setGoal s => exact ih h (fun q => this (hb q)) hs
      | costsChanged env => exact ih h (fun _ => this) hs
      | forceScratch => exact ih h (fun _ => this) hs
      | setParams a b c d => exact ih h (fun q => this (hb q)) hs
      | replan bs => exact ih h (fun q => by cases q) hs

theorem step_minEps {st st' : ARA} {B : Nat} (op : Op) (g : Good st) (ok : OpOk op) (h : st.step op = some st')
    (hop : ∀ a b c d, op = .setParams a b c d → B ≤ a) (e : B ≤ st.initEps) : B ≤ st'.initEps := by
  have sg : ∀ s, B ≤ (st.setSearchGoal s).initEps := by
    intro s; unfold setSearchGoal; split <;> exact e
  have ss : ∀ s, B ≤ (st.setSearchStart s).initEps := by
    intro s; unfold setSearchStart; split <;> exact e
  cases op with
  | setStart s => cases h; unfold setStart; split; exact ss s; exact sg s
  | setGoal s => cases h; unfold setGoal; split; exact sg s; exact ss s
  | costsChanged env => cases h; exact e
  | forceScratch => cases h; exact e
  | setParams a b c d => cases h; exact hop a b c d rfl
  | replan bs =>
    simp only [step] at h
    cases e' : st.replan bs with
    | error x => rw [e'] at h; cases h
    | ok r =>
      rw [e'] at h
      cases h
      obtain ⟨s0, gl, h0, hg⟩ := replan_start e'
      have sp := replan_spec bs g.api g.env h0 hg (.inl ok)
      rw [e'] at sp
      rw [sp.initEps]; exact e

theorem run_minEps {B : Nat} (ops : List Op) : ∀ {st st' : ARA}, Good st → (∀ op ∈ ops, OpOk op) → st.run ops = some st' →
    (∀ op ∈ ops, ∀ a b c d, op = .setParams a b c d → B ≤ a) → B ≤ st.initEps → B ≤ st'.initEps := by
  induction ops with
  | nil => intro st st' _ _ h _ e; cases h; exact e
  | cons op ops ih =>
    intro st st' g ok h hop e
    unfold run at h
    cases e1 : st.step op with
    | none => rw [e1] at h; cases h
    | some st1 =>
      rw [e1] at h
      exact ih (step_good op g (ok op (by simp)) e1) (fun o ho => ok o (by simp [ho])) h (fun o ho => hop o (by simp [ho]))
        (step_minEps op g (ok op (by simp)) e1 (hop op (by simp)) e)

end Sbpl.ARA

namespace Sbpl.ARAProps
open ARA PlannerSpec

/-- **C185** If the search is from scratch and the environment's heuristic from start to goal, inflated by any of the requested eps, is INFINITECOST or more, then `replan` reports that
there is no path, without expanding a state: whether there is one or not. -/
theorem infinite_heuristic {env0 : PEnv} {fwd : Bool} {D ie fe de : Nat} {fs : Bool} {ops : List Op} {st st' : ARA} {bs : List Nat} {res : Result} {a b : Nat}
    (he : EnvOk env0) (hok : ∀ op ∈ ops, OpOk op) (hrun : (ARA.init env0 fwd D ie fe de fs).run ops = some st) (ha : lastStart ops = some a) (hb : lastGoal ops = some b)
    (hs : scratch true ops = true) (hD : 0 < D) {e : Nat} (h1 : e ≤ ie) (h2 : ∀ op ∈ ops, ∀ ie' fe' de' fs', op = .setParams ie' fe' de' fs' → e ≤ ie') (hab : a ≠ b)
    (hinf : D * INFINITECOST ≤ e * if fwd then (lastEnv env0 ops).hGoal b a else (lastEnv env0 ops).hStart a b) (hr : st.replan bs = .ok (st', res)) :
    res.found = false ∧ res.path = [] ∧ ∀ tr ∈ res.traces, tr = [] := by
  obtain ⟨g, ef, eD, ee, s0, gl, e0, eg, es1, es2⟩ := hist he hok hrun ha hb
  have r := run_reinit ops hrun (fun _ => rfl) hs
  have g0 : Good (ARA.init env0 fwd D ie fe de fs) := ⟨init_api .., he⟩
  have m : e ≤ st.initEps := run_minEps ops g0 hok hrun h2 h1
  have hq : (if fwd then (lastEnv env0 ops).hGoal b a else (lastEnv env0 ops).hStart a b) = st.heur gl s0 := by
    unfold heur
    rw [ef, ee]
    cases fwd
    · simp only [envStart, envGoal, Bool.false_eq_true, if_false] at es1 es2 ⊢
      rw [es1, es2]
    · simp only [envStart, envGoal, if_true] at es1 es2 ⊢
      rw [es1, es2]
  refine blocked_replan g.api.data r e0 eg ?_ ?_ hr
  · rintro rfl
    apply hab
    rw [← es1, ← es2]
    unfold envStart envGoal
    split_ifs <;> rfl
  · rw [eD]
    rw [hq] at hinf
    unfold infl
    rw [Nat.le_div_iff_mul_le hD]
    have : e * st.heur gl s0 ≤ st.initEps * st.heur gl s0 := Nat.mul_le_mul_right _ m
    have e1 : INFINITECOST = 1000000000 := rfl
    rw [e1] at hinf
    omega

end Sbpl.ARAProps
