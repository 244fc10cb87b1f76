import Verif.Proofs.XYTTrack
/-!
# (x, y, theta) lattice environment: states, successors, predecessors (C49 – C51)
-/

namespace Sbpl.XYTProps
open XEnv XSpec StateTable XCfg

variable {s : Setup} {ops : List Op} {st : XEnv}

/-! ## C49: IDs -/

/-- **C49** Two IDs never stand for the same coordinates. -/
theorem ids_injective (h : Hist s ops st) {i j : Nat} {k : XKey} (hi : st.getCoord i = .ok k) (hj : st.getCoord j = .ok k) : i = j :=
  coord_inj (hist_inv h).1.x.tab (getCoord_ok.mp hi) (getCoord_ok.mp hj)

/-- **C49** The IDs in use are 0, 1, ..., n - 1, and their coordinates are map cells with one of the headings. -/
theorem ids_dense (h : Hist s ops st) : ∃ n, (∀ i, (∃ k, st.getCoord i = .ok k) ↔ i < n) ∧ ∀ i k, st.getCoord i = .ok k → InRange s k := by
  have inv := (hist_inv h).1
  refine ⟨st.tab.size, fun i => ?_, fun i k hk => ?_⟩
  · rw [← coord_lt]
    constructor
    · rintro ⟨k, hk⟩; rw [getCoord_ok.mp hk]; simp
    · intro hn
      cases hc : st.tab.coord i with
      | none => exact absurd hc hn
      | some k => exact ⟨k, getCoord_ok.mpr hc⟩
  · exact inv.stc.inRange.mp (inRange_of_coord inv.x (getCoord_ok.mp hk))

/-- **C49** The coordinates of an ID never change, and looking them up gives the ID again and changes nothing. -/
theorem ids_stable (h : Hist s ops st) {ops' : List Op} {st' : XEnv} (hc : ∀ op ∈ ops', CallOk s op) (hr : st.run ops' = some st')
    {i : Nat} {k : XKey} (hi : st.getCoord i = .ok k) : st'.getCoord i = .ok k ∧ st'.getState k = .ok (st', i) := by
  obtain ⟨i1, kp⟩ := run_inv h.1 ops' (hist_inv h).1 hc hr
  have := coord_prefix kp.pre (getCoord_ok.mp hi)
  exact ⟨getCoord_ok.mpr this, getState_of_coord i1.x this⟩

/-- **C49** Every state has an ID: looking up the coordinates of a state succeeds, and the result has these coordinates. -/
theorem ids_total (h : Hist s ops st) {k : XKey} (hk : InRange s k) : ∃ st' i, st.getState k = .ok (st', i) ∧ st'.getCoord i = .ok k := by
  have inv := (hist_inv h).1
  obtain ⟨st', i, h1, -, -, h4, -⟩ := getState_ok inv.x (inv.stc.inRange.mpr hk)
  exact ⟨st', i, h1, getCoord_ok.mpr h4⟩

/-- **C49** The start and goal IDs have the coordinates last accepted by SetStart and SetGoal (initially those given to InitializeEnv). -/
theorem start_goal (h : Hist s ops st) : st.getCoord st.startId = .ok (startOf s ops) ∧ st.getCoord st.goalId = .ok (goalOf s ops) := by
  obtain ⟨inv, -, e2, e3⟩ := hist_inv h
  rw [← e2, ← e3]
  exact ⟨getCoord_ok.mpr inv.startC, getCoord_ok.mpr inv.goalC⟩

/-- the IDs and cells handed to a call exist -/
def ArgsOk (s : Setup) (st : XEnv) : Op → Prop
  | .getSuccs id | .getPreds id | .getLazySuccs id | .getLazyPreds id => ∃ k, st.getCoord id = .ok k
  | .getTrueCost a b => (∃ k, st.getCoord a = .ok k) ∧ ∃ k, st.getCoord b = .ok k
  | .pathActions l => ∀ id ∈ l, ∃ k, st.getCoord id = .ok k
  | .updateCost x y _ => InMap s (x, y)
  | _ => True

theorem trueCostLoop_err {st : XEnv} {k : XKey} {child : Nat} : ∀ {as : List XAct} {e : XErr}, trueCostLoop st k child as = .error e → e = .noTransition := by
  intro as
  induction as with
  | nil => intro e h; simp only [trueCostLoop] at h; cases h; rfl
  | cons a as ih =>
    intro e h
    simp only [trueCostLoop] at h
    by_cases hv : st.cfg.valid (k.1 + a.dX) (k.2.1 + a.dY) = false
    · rw [if_pos hv] at h; exact ih h
    · rw [if_neg hv] at h
      split at h
      · exact ih h
      · split_ifs at h
        · exact ih h

theorem succs_ok (i : SInv s st) {id : Nat} (hk : ∃ k, st.getCoord id = .ok k) : ∃ st' l, st.getSuccs id = .ok (st', l) := by
  obtain ⟨k, hk⟩ := hk
  by_cases hg : id = st.goalId
  · subst hg; exact ⟨st, [], succsBy_goal _ _⟩
  · obtain ⟨st', l, h1, -⟩ := succsBy_ok i (succAct_inRange i.stc) hg (getCoord_ok.mp hk)
    exact ⟨st', l, h1⟩

theorem pathActions_err : ∀ (l : List Nat) {st : XEnv} {e : XErr}, SInv s st → (∀ id ∈ l, ∃ k, st.getCoord id = .ok k) →
    st.pathActions l = .error e → e = .noTransition := by
  intro l
  induction l with
  | nil => intro st e _ _ h; unfold pathActions at h; cases h
  | cons a l ih =>
    intro st e i hl h
    cases l with
    | nil => unfold pathActions at h; cases h
    | cons b l =>
      unfold pathActions at h
      obtain ⟨st1, r, h1⟩ := succs_ok i (hl a (by simp))
      rw [h1] at h
      dsimp only at h
      split at h
      next => cases h; rfl
      next e' he =>
        obtain ⟨i1, x1⟩ := succsBy_ext i (succAct_inRange i.stc) h1
        split at h
        next er hp =>
          cases h
          refine ih i1 (fun id hid => ?_) hp
          obtain ⟨k, hk⟩ := hl id (by simp [List.mem_cons.mp hid])
          exact ⟨k, getCoord_ok.mpr (coord_prefix x1.pre (getCoord_ok.mp hk))⟩
        next => cases h

/-- **C49** No call is undefined behaviour: with existing IDs, states and cells every call succeeds, or it is GetActionsFromStateIDPath and raises an
exception because two IDs in the path are not connected. -/
theorem calls_safe (h : Hist s ops st) {op : Op} (hc : CallOk s op) (ha : ArgsOk s st op) (hn : st.step op = none) :
    ∃ l, op = .pathActions l ∧ st.pathActions l = .error .noTransition := by
  have i := (hist_inv h).1
  cases op with
  | getState k =>
    obtain ⟨st1, id, g1, -⟩ := getState_ok i.x (i.stc.inRange.mpr hc)
    simp [step, g1] at hn
  | getSuccs id =>
    obtain ⟨st', l, h1⟩ := succs_ok i ha
    simp [step, h1] at hn
  | getPreds id =>
    obtain ⟨k, hk⟩ := ha
    obtain ⟨st', l, h1, -⟩ := predsBy_ok h.1 i predAct_inRange (getCoord_ok.mp hk)
    simp [step, getPreds, h1] at hn
  | getLazySuccs id =>
    obtain ⟨k, hk⟩ := ha
    by_cases hg : id = st.goalId
    · subst hg; simp [step, getLazySuccs, succsBy_goal] at hn
    · obtain ⟨st', l, h1, -⟩ := succsBy_ok i (lazySuccAct_inRange i.stc) hg (getCoord_ok.mp hk)
      simp [step, getLazySuccs, h1] at hn
  | getLazyPreds id =>
    obtain ⟨k, hk⟩ := ha
    obtain ⟨st', l, h1, -⟩ := predsBy_ok h.1 i lazyPredAct_inRange (getCoord_ok.mp hk)
    simp [step, getLazyPreds, h1] at hn
  | getTrueCost a b =>
    obtain ⟨⟨k, hk⟩, k', hk'⟩ := ha
    have hr := (inRange_iff.mp (inRange_of_coord i.x (getCoord_ok.mp hk))).2
    simp only [step] at hn
    split at hn
    · cases hn
    · cases hn
    next e hne he =>
      unfold getTrueCost at he
      rw [hk, hk'] at he
      unfold actsAt at he
      dsimp only at he
      rw [if_pos hr] at he
      exact absurd (trueCostLoop_err he) (by intro q; subst q; exact hne rfl)
  | pathActions l =>
    simp only [step] at hn
    split at hn
    · cases hn
    next e he =>
      have := pathActions_err l i ha he
      subst this
      exact ⟨l, rfl, he⟩
  | setStart x y th =>
    obtain ⟨st1, r, g1, -⟩ := setStart_ok i (x := x) (y := y) hc
    simp [step, g1] at hn
  | setGoal x y th =>
    obtain ⟨st1, r, g1, -⟩ := setGoal_ok i (x := x) (y := y) hc
    simp [step, g1] at hn
  | updateCost x y v =>
    have : st.cfg.within x y = true := i.stc.within.mpr ha
    simp [step, updateCost, this] at hn
  | setMap map => simp [step] at hn
  | changedPreds cs => simp [step] at hn

/-! ## C50: successors -/

/-- the primitives of a heading, in the order of the list handed to InitializeEnv -/
def primsOf (s : Setup) (t : Int) : List MPrim := s.prims.filter (fun m => decide (m.startTheta = t))

theorem mem_acts_iff (i : SInv s st) (ok : SetupOk s) {t : Int} (t0 : 0 ≤ t) (tT : t < s.T) {a : XAct} :
    a ∈ st.cfg.acts t ↔ ∃ m, (primsOf s t)[a.aind]? = some m ∧ a = mkAct s.cs s.foot a.aind m := by
  rw [i.stc.acts]
  constructor
  · intro ha
    obtain ⟨m, h1, -, -, h2, -⟩ := mem_actsFor ok t0 tT ha
    exact ⟨m, h1, h2⟩
  · rintro ⟨m, h1, h2⟩
    rw [h2]; exact act_of_prim h1

theorem acts_sorted (s : Setup) (t : Int) : (actsFor s.cs s.foot s.prims t).Pairwise (fun a b => a.aind < b.aind) := by
  unfold actsFor
  rw [List.pairwise_iff_getElem]
  intro i j hi hj hij
  rw [List.getElem_mapIdx, List.getElem_mapIdx]
  exact hij

theorem primsOf_mem {t : Int} {i : Nat} {m : MPrim} (h : (primsOf s t)[i]? = some m) : m ∈ s.prims ∧ m.startTheta = t := by
  have := List.mem_of_getElem? h
  unfold primsOf at this
  rw [List.mem_filter, decide_eq_true_iff] at this
  exact this

/-- **C50** GetSuccs of a state other than the goal: the `i`-th primitive of the heading of the state appears in the result, with a given end and cost, exactly when with
the current costs of the cells it leads there at this cost; each primitive appears at most once and in order, no other action appears, and the costs, the
start and the goal are unchanged. -/
theorem succs_exact (h : Hist s ops st) {id : Nat} {p : XKey} (hp : st.getCoord id = .ok p) (hg : id ≠ st.goalId) :
    ∃ st' l, st.getSuccs id = .ok (st', l) ∧ st'.cfg = st.cfg ∧ st'.startId = st.startId ∧ st'.goalId = st.goalId ∧
      (∀ i m q c, (primsOf s p.2.2)[i]? = some m →
        ((∃ j a, (j, c, a) ∈ l ∧ a.aind = i ∧ st'.getCoord j = .ok q) ↔ Edge s (costs s ops) m p q c)) ∧
      l.Pairwise (fun e e' => e.2.2.aind < e'.2.2.aind) ∧
      ∀ e ∈ l, e.2.2.aind < (primsOf s p.2.2).length ∧ ∃ q, st'.getCoord e.1 = .ok q := by
  obtain ⟨inv, eg, -, -⟩ := hist_inv h
  have hk := getCoord_ok.mp hp
  obtain ⟨st', l, h1, h2, h3, h4⟩ := succsBy_ok inv (succAct_inRange inv.stc) hg hk
  have hr := (inv.stc.inRange.mp (inRange_of_coord inv.x hk)).2
  have char : ∀ j c a, (j, c, a) ∈ l → ∃ q, st'.tab.coord j = some q ∧ a ∈ st.cfg.acts p.2.2 ∧ st.cfg.succAct p a = some (q, c) := by
    intro j c a hm
    have : (st'.tab.coord j, c, a) ∈ l.map (fun e => (st'.tab.coord e.1, e.2.1, e.2.2)) := List.mem_map.mpr ⟨_, hm, rfl⟩
    rw [h4, List.mem_filterMap] at this
    obtain ⟨a', ha', e⟩ := this
    cases hs : st.cfg.succAct p a' with
    | none => rw [hs] at e; cases e
    | some r =>
      rw [hs] at e
      simp only [Option.map_some, Option.some.injEq, Prod.mk.injEq] at e
      obtain ⟨e1, e2, e3⟩ := e
      subst e3
      exact ⟨r.1, e1.symm, ha', by rw [hs, ← e2]⟩
  refine ⟨st', l, h1, h3.cfg, h3.startId, h3.goalId, ?_, ?_, ?_⟩
  · intro i m q c hm
    obtain ⟨hm1, hm2⟩ := primsOf_mem hm
    rw [← eg]
    rw [← succAct_iff inv.stc h.1 (i := i) hm1 hm2]
    constructor
    · rintro ⟨j, a, hj, rfl, hq⟩
      obtain ⟨q', hq', ha, hs⟩ := char j c a hj
      rw [getCoord_ok, hq'] at hq
      cases hq
      obtain ⟨m', hm', ea⟩ := (mem_acts_iff inv h.1 hr.1 hr.2).mp ha
      rw [hm] at hm'; cases hm'
      rw [← ea]; exact hs
    · intro hs
      have ha : mkAct s.cs s.foot i m ∈ st.cfg.acts p.2.2 := by rw [inv.stc.acts]; exact act_of_prim hm
      have : (some q, c, mkAct s.cs s.foot i m) ∈ (st.cfg.acts p.2.2).filterMap (fun a => (st.cfg.succAct p a).map (fun r => (some r.1, r.2, a))) := by
        rw [List.mem_filterMap]; exact ⟨_, ha, by rw [hs]; rfl⟩
      rw [← h4, List.mem_map] at this
      obtain ⟨⟨j, c', a'⟩, hj, e⟩ := this
      simp only [Prod.mk.injEq] at e
      obtain ⟨e1, rfl, rfl⟩ := e
      exact ⟨j, _, hj, rfl, getCoord_ok.mpr e1⟩
  · have hpw : ((st.cfg.acts p.2.2).filterMap (fun a => (st.cfg.succAct p a).map (fun r => (some r.1, r.2, a)))).Pairwise
        (fun e e' => e.2.2.aind < e'.2.2.aind) := by
      rw [inv.stc.acts, List.pairwise_filterMap]
      refine (acts_sorted s p.2.2).imp ?_
      intro a b hab x hx y hy
      have hx' : x.2.2 = a := by
        cases hs : st.cfg.succAct p a with
        | none => rw [hs] at hx; cases hx
        | some r => rw [hs] at hx; cases hx; rfl
      have hy' : y.2.2 = b := by
        cases hs : st.cfg.succAct p b with
        | none => rw [hs] at hy; cases hy
        | some r => rw [hs] at hy; cases hy; rfl
      rw [hx', hy']; exact hab
    rw [← h4, List.pairwise_map] at hpw
    exact hpw
  · rintro ⟨j, c, a⟩ hj
    obtain ⟨q', hq', ha, hs⟩ := char j c a hj
    obtain ⟨m', hm', ea⟩ := (mem_acts_iff inv h.1 hr.1 hr.2).mp ha
    exact ⟨(List.getElem?_eq_some_iff.mp hm').1, q', getCoord_ok.mpr hq'⟩

/-- **C50** The goal has no successors. -/
theorem goal_absorbing (st : XEnv) : st.getSuccs st.goalId = .ok (st, []) ∧ st.getLazySuccs st.goalId = .ok (st, []) :=
  ⟨succsBy_goal _ _, succsBy_goal _ _⟩

/-! ## C51: predecessors -/

theorem actionCost_valid {c : XCfg} {x y : Int} {a : XAct} (h : ¬ c.actionCost x y a ≥ INFINITECOST) :
    c.valid x y = true ∧ c.valid (x + a.dX) (y + a.dY) = true := by
  unfold actionCost at h
  split_ifs at h with h1 h2 h3
  · exact absurd (Nat.le_refl _) h
  · exact absurd (Nat.le_refl _) h
  · exact absurd (Nat.le_refl _) h
  · exact ⟨by simpa using h1, by simpa using h2⟩

theorem predAct_iff {c : XCfg} {q : XKey} {a : XAct} (hq : Utils.normDiscTheta a.endTheta c.T = q.2.2)
    {p : XKey} {n : Nat} : c.predAct q a = some (p, n) ↔ p.2.2 = a.startTheta ∧ c.succAct p a = some (q, n) := by
  unfold predAct succAct source
  have e : ∀ x y : Int, x - y + y = x := by intros; omega
  constructor
  · intro h
    split_ifs at h with h1 h2
    cases h
    refine ⟨rfl, ?_⟩
    dsimp only
    unfold target
    dsimp only
    have := (actionCost_valid h2).2
    rw [e, e] at this
    rw [e, e, if_neg (by simp [this]), if_neg h2, hq]
  · rintro ⟨h1, h2⟩
    split_ifs at h2 with k1 k2
    unfold target at h2
    simp only [Option.some.injEq, Prod.mk.injEq] at h2
    obtain ⟨hq', hn⟩ := h2
    have e1 : q.1 - a.dX = p.1 := by rw [← hq']; dsimp only; omega
    have e2 : q.2.1 - a.dY = p.2.1 := by rw [← hq']; dsimp only; omega
    have := (actionCost_valid k2).1
    rw [e1, e2, ← h1, if_neg (by simp [this]), if_neg k2, hn]

/-- what GetPreds returns -/
theorem preds_char (h : Hist s ops st) {id : Nat} {q : XKey} (hq : st.getCoord id = .ok q) :
    ∃ st' l, st.getPreds id = .ok (st', l) ∧ XInv st' ∧ Ext st st' ∧ ∀ p c a,
      (∃ j, (j, c, a) ∈ l ∧ st'.getCoord j = .ok p) ↔ 0 ≤ p.2.2 ∧ p.2.2 < s.T ∧ a ∈ st.cfg.acts p.2.2 ∧ st.cfg.succAct p a = some (q, c) := by
  obtain ⟨inv, eg, -, -⟩ := hist_inv h
  have hk := getCoord_ok.mp hq
  obtain ⟨st', l, h1, h2, h3, h4⟩ := predsBy_ok h.1 inv predAct_inRange hk
  refine ⟨st', l, h1, h2, h3, ?_⟩
  intro p c a
  constructor
  · rintro ⟨j, hj, hp⟩
    have : (st'.tab.coord j, c, a) ∈ l.map (fun e => (st'.tab.coord e.1, e.2.1, e.2.2)) := List.mem_map.mpr ⟨_, hj, rfl⟩
    rw [h4, List.mem_filterMap] at this
    obtain ⟨a', ha', e⟩ := this
    obtain ⟨u, u0, uT, hu, hsu, hn⟩ := (mem_preds inv.stc h.1).mp ha'
    cases hs : st.cfg.predAct q a' with
    | none => rw [hs] at e; cases e
    | some r =>
      rw [hs] at e
      simp only [Option.map_some, Option.some.injEq, Prod.mk.injEq] at e
      obtain ⟨e1, e2, e3⟩ := e
      subst e3
      rw [getCoord_ok, ← e1] at hp
      cases hp
      have := (predAct_iff hn (p := r.1) (n := r.2)).mp hs
      rw [← e2, this.1, hsu]
      rw [inv.stc.T] at uT
      exact ⟨u0, uT, hu, this.2⟩
  · rintro ⟨p0, pT, ha, hs⟩
    have hst : a.startTheta = p.2.2 := by
      rw [inv.stc.acts] at ha
      obtain ⟨m, -, -, -, -, hst, -⟩ := mem_actsFor h.1 p0 pT ha
      exact hst
    have hn : Utils.normDiscTheta a.endTheta st.cfg.T = q.2.2 := by
      unfold succAct at hs
      split_ifs at hs
      simp only [Option.some.injEq, Prod.mk.injEq] at hs
      rw [← hs.1]; rfl
    have hpa := (predAct_iff hn (p := p) (n := c)).mpr ⟨hst.symm, hs⟩
    have : (some p, c, a) ∈ (st.cfg.preds q.2.2).filterMap (fun a => (st.cfg.predAct q a).map (fun r => (some r.1, r.2, a))) := by
      rw [List.mem_filterMap]
      refine ⟨a, (mem_preds inv.stc h.1).mpr ⟨p.2.2, p0, ?_, ha, hst, hn⟩, by rw [hpa]; rfl⟩
      rw [inv.stc.T]; exact pT
    rw [← h4, List.mem_map] at this
    obtain ⟨⟨j, c', a'⟩, hj, e⟩ := this
    simp only [Prod.mk.injEq] at e
    obtain ⟨e1, rfl, rfl⟩ := e
    exact ⟨j, hj, getCoord_ok.mpr e1⟩

/-- **C51** GetPreds, of any state (the goal included): the state `p` is reported with cost `c` for the `i`-th primitive of its heading exactly when with the
current costs of the cells this primitive leads from `p` to the state at cost `c`. -/
theorem preds_exact (h : Hist s ops st) {id : Nat} {q : XKey} (hq : st.getCoord id = .ok q) :
    ∃ st' l, st.getPreds id = .ok (st', l) ∧ st'.cfg = st.cfg ∧ st'.startId = st.startId ∧ st'.goalId = st.goalId ∧
      (∀ i m (p : XKey) c, 0 ≤ p.2.2 → p.2.2 < (s.T : Int) → (primsOf s p.2.2)[i]? = some m →
        ((∃ j a, (j, c, a) ∈ l ∧ a.aind = i ∧ st'.getCoord j = .ok p) ↔ Edge s (costs s ops) m p q c)) ∧
      ∀ e ∈ l, ∃ p, st'.getCoord e.1 = .ok p ∧ InRange s p ∧ e.2.2.aind < (primsOf s p.2.2).length := by
  obtain ⟨inv, eg, -, -⟩ := hist_inv h
  obtain ⟨st', l, h1, h2, h3, h4⟩ := preds_char h hq
  refine ⟨st', l, h1, h3.cfg, h3.startId, h3.goalId, ?_, ?_⟩
  · intro i m p c p0 pT hm
    obtain ⟨hm1, hm2⟩ := primsOf_mem hm
    rw [← eg, ← succAct_iff inv.stc h.1 (i := i) hm1 hm2]
    constructor
    · rintro ⟨j, a, hj, rfl, hp⟩
      obtain ⟨-, -, ha, hs⟩ := (h4 p c a).mp ⟨j, hj, hp⟩
      obtain ⟨m', hm', ea⟩ := (mem_acts_iff inv h.1 p0 pT).mp ha
      rw [hm] at hm'; cases hm'
      rw [← ea]; exact hs
    · intro hs
      have ha : mkAct s.cs s.foot i m ∈ st.cfg.acts p.2.2 := by rw [inv.stc.acts]; exact act_of_prim hm
      obtain ⟨j, hj, hp⟩ := (h4 p c _).mpr ⟨p0, pT, ha, hs⟩
      exact ⟨j, _, hj, rfl, hp⟩
  · rintro ⟨j, c, a⟩ hj
    obtain ⟨st2, l2, g1, g2, g3, g4⟩ := predsBy_ok h.1 inv predAct_inRange (getCoord_ok.mp hq)
    have hsame : st2 = st' ∧ l2 = l := by
      have := g1.symm.trans h1; cases this; exact ⟨rfl, rfl⟩
    obtain ⟨rfl, rfl⟩ := hsame
    have : (st2.tab.coord j, c, a) ∈ l2.map (fun e => (st2.tab.coord e.1, e.2.1, e.2.2)) := List.mem_map.mpr ⟨_, hj, rfl⟩
    rw [g4, List.mem_filterMap] at this
    obtain ⟨a', ha', e⟩ := this
    cases hs : st.cfg.predAct q a' with
    | none => rw [hs] at e; cases e
    | some r =>
      rw [hs] at e
      simp only [Option.map_some, Option.some.injEq, Prod.mk.injEq] at e
      have hp : st2.getCoord j = .ok r.1 := getCoord_ok.mpr e.1.symm
      refine ⟨r.1, hp, ?_, ?_⟩
      · have := inRange_of_coord g2 (getCoord_ok.mp hp)
        rw [g3.cfg] at this
        exact inv.stc.inRange.mp this
      · obtain ⟨p0, pT, ha, -⟩ := (h4 r.1 c a).mp ⟨j, hj, hp⟩
        obtain ⟨m', hm', -⟩ := (mem_acts_iff inv h.1 p0 pT).mp ha
        exact (List.getElem?_eq_some_iff.mp hm').1

/-- **C51** Forward and backward search see the same graph: for states `a` other than the goal and `b`, GetSuccs of `a` reports `b` with some cost and action exactly
when GetPreds of `b` reports `a` with this cost and action. -/
theorem succs_preds_dual (h : Hist s ops st) {a b : Nat} {p q : XKey} (ha : st.getCoord a = .ok p) (hb : st.getCoord b = .ok q) (hg : a ≠ st.goalId) :
    ∃ s1 ls s2 lp, st.getSuccs a = .ok (s1, ls) ∧ st.getPreds b = .ok (s2, lp) ∧ ∀ c x, (b, c, x) ∈ ls ↔ (a, c, x) ∈ lp := by
  obtain ⟨inv, eg, -, -⟩ := hist_inv h
  have hk := getCoord_ok.mp ha
  obtain ⟨s1, ls, h1, h2, h3, h4⟩ := succsBy_ok inv (succAct_inRange inv.stc) hg hk
  obtain ⟨s2, lp, g1, g2, g3, g4⟩ := preds_char h hb
  have hr := (inv.stc.inRange.mp (inRange_of_coord inv.x hk)).2
  refine ⟨s1, ls, s2, lp, h1, g1, ?_⟩
  intro c x
  have hb1 := coord_prefix h3.pre (getCoord_ok.mp hb)
  have ha2 := coord_prefix g3.pre hk
  constructor
  · intro hm
    have : (s1.tab.coord b, c, x) ∈ ls.map (fun e => (s1.tab.coord e.1, e.2.1, e.2.2)) := List.mem_map.mpr ⟨_, hm, rfl⟩
    rw [h4, List.mem_filterMap] at this
    obtain ⟨x', hx', e⟩ := this
    cases hs : st.cfg.succAct p x' with
    | none => rw [hs] at e; cases e
    | some r =>
      rw [hs, hb1] at e
      simp only [Option.map_some, Option.some.injEq, Prod.mk.injEq] at e
      obtain ⟨e1, e2, e3⟩ := e
      subst e3
      obtain ⟨j, hj, hp⟩ := (g4 p c x').mpr ⟨hr.1, hr.2, hx', by rw [hs, ← e1, ← e2]⟩
      rwa [coord_inj g2.tab (getCoord_ok.mp hp) ha2] at hj
  · intro hm
    obtain ⟨-, -, hx, hs⟩ := (g4 p c x).mp ⟨a, hm, getCoord_ok.mpr ha2⟩
    have : (some q, c, x) ∈ (st.cfg.acts p.2.2).filterMap (fun a => (st.cfg.succAct p a).map (fun r => (some r.1, r.2, a))) := by
      rw [List.mem_filterMap]; exact ⟨_, hx, by rw [hs]; rfl⟩
    rw [← h4, List.mem_map] at this
    obtain ⟨⟨j, c', a'⟩, hj, e⟩ := this
    simp only [Prod.mk.injEq] at e
    obtain ⟨e1, rfl, rfl⟩ := e
    rwa [coord_inj h2.tab e1 hb1] at hj

end Sbpl.XYTProps
