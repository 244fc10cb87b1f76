import Verif.Proofs.MLevInv
import Verif.Props.XYT
import Verif.Props.XYTARA
/-!
# Lattice navigation with additional levels: transitions (C128–C131)
-/

namespace Sbpl.MLevProps
open XEnv XCfg XSpec MEnv XYTProps StateTable

variable {s : Setup} {ops : List MOp} {st : MEnv}

theorem mem_acts_iff (i : MInv s st) (ok : SetupOk s) {t : Int} (t0 : 0 ≤ t) (tT : t < s.T) {a : XAct} :
    a ∈ st.env.cfg.acts t ↔ ∃ m, (primsOf s t)[a.aind]? = some m ∧ a = mkAct s.cs s.foot a.aind m := XYTProps.mem_acts_iff i.env ok t0 tT

/-! ## C128: successors -/

/-- **C128** GetSuccs of a state other than the goal: the `i`-th primitive of the heading appears in the result, with a given end and cost, exactly when with the current costs
of the cells at all levels it leads there at this cost; each primitive appears at most once and in order, no other action appears, and costs, levels, start and goal are
unchanged. -/
theorem succs_exact (h : MHist s ops st) {id : Nat} {p : XKey} (hp : st.env.getCoord id = .ok p) (hg : id ≠ st.env.goalId) :
    ∃ st' l, st.getSuccs id = .ok (st', l) ∧ st'.env.cfg = st.env.cfg ∧ st'.lev = st.lev ∧ st'.env.startId = st.env.startId ∧ st'.env.goalId = st.env.goalId ∧
      (∀ i m q c, (primsOf s p.2.2)[i]? = some m →
        ((∃ j a, (j, c, a) ∈ l ∧ a.aind = i ∧ st'.env.getCoord j = .ok q) ↔ MEdge s (costs s (baseCalls ops)) (levelsOf s ops) m p q c)) ∧
      l.Pairwise (fun e e' => e.2.2.aind < e'.2.2.aind) ∧
      ∀ e ∈ l, e.2.2.aind < (primsOf s p.2.2).length ∧ ∃ q, st'.env.getCoord e.1 = .ok q := by
  obtain ⟨inv, eg, -, -, -, el⟩ := mhist_inv h
  have hk := getCoord_ok.mp hp
  obtain ⟨st', l, h1, h2, h3, h4⟩ := succsBy_ok inv.env (MEnv.succAct_inRange inv.env.stc st.levels) hg hk
  have hr := (inv.env.stc.inRange.mp (inRange_of_coord inv.env.x hk)).2
  have char : ∀ j c a, (j, c, a) ∈ l → ∃ q, st'.tab.coord j = some q ∧ a ∈ st.env.cfg.acts p.2.2 ∧ MEnv.succAct st.levels st.env.cfg p a = some (q, c) := by
    intro j c a hm
    have : (st'.tab.coord j, c, a) ∈ l.map (fun e => (st'.tab.coord e.1, e.2.1, e.2.2)) := List.mem_map.mpr ⟨_, hm, rfl⟩
    rw [h4, List.mem_filterMap] at this
    obtain ⟨a', ha', e⟩ := this
    cases hs : MEnv.succAct st.levels st.env.cfg p a' with
    | none => rw [hs] at e; cases e
    | some r =>
      rw [hs] at e
      simp only [Option.map_some, Option.some.injEq, Prod.mk.injEq] at e
      obtain ⟨e1, e2, e3⟩ := e
      subst e3
      exact ⟨r.1, e1.symm, ha', by rw [hs, ← e2]⟩
  refine ⟨{ st with env := st' }, l, by unfold MEnv.getSuccs; rw [h1]; rfl, h3.cfg, rfl, h3.startId, h3.goalId, ?_, ?_, ?_⟩
  · intro i m q c hm
    rw [← eg, ← el]
    rw [← MEnv.succAct_iff inv.env.stc h.1 inv.lst (i := i) hm hr.1 hr.2]
    constructor
    · rintro ⟨j, a, hj, rfl, hq⟩
      obtain ⟨q', hq', ha, hs⟩ := char j c a hj
      rw [getCoord_ok, hq'] at hq
      cases hq
      obtain ⟨m', hm', ea⟩ := (mem_acts_iff inv h.1 hr.1 hr.2).mp ha
      rw [hm] at hm'; cases hm'
      rw [← ea]; exact hs
    · intro hs
      have ha : mkAct s.cs s.foot i m ∈ st.env.cfg.acts p.2.2 := by rw [inv.env.stc.acts]; exact act_of_prim hm
      have : (some q, c, mkAct s.cs s.foot i m) ∈ (st.env.cfg.acts p.2.2).filterMap
          (fun a => (MEnv.succAct st.levels st.env.cfg p a).map (fun r => (some r.1, r.2, a))) := by
        rw [List.mem_filterMap]; exact ⟨_, ha, by rw [hs]; rfl⟩
      rw [← h4, List.mem_map] at this
      obtain ⟨⟨j, c', a'⟩, hj, e⟩ := this
      simp only [Prod.mk.injEq] at e
      obtain ⟨e1, rfl, rfl⟩ := e
      exact ⟨j, _, hj, rfl, getCoord_ok.mpr e1⟩
  · have hpw : ((st.env.cfg.acts p.2.2).filterMap (fun a => (MEnv.succAct st.levels st.env.cfg p a).map (fun r => (some r.1, r.2, a)))).Pairwise
        (fun e e' => e.2.2.aind < e'.2.2.aind) := by
      rw [inv.env.stc.acts, List.pairwise_filterMap]
      refine (acts_sorted s p.2.2).imp ?_
      intro a b hab x hx y hy
      have hx' : x.2.2 = a := by
        cases hs : MEnv.succAct st.levels st.env.cfg p a with
        | none => rw [hs] at hx; cases hx
        | some r => rw [hs] at hx; cases hx; rfl
      have hy' : y.2.2 = b := by
        cases hs : MEnv.succAct st.levels st.env.cfg p b with
        | none => rw [hs] at hy; cases hy
        | some r => rw [hs] at hy; cases hy; rfl
      rw [hx', hy']; exact hab
    rw [← h4, List.pairwise_map] at hpw
    exact hpw
  · rintro ⟨j, c, a⟩ hj
    obtain ⟨q', hq', ha, hs⟩ := char j c a hj
    obtain ⟨m', hm', ea⟩ := (mem_acts_iff inv h.1 hr.1 hr.2).mp ha
    exact ⟨(List.getElem?_eq_some_iff.mp hm').1, q', getCoord_ok.mpr hq'⟩

/-- **C128** The goal has no successors. -/
theorem goal_absorbing (st : MEnv) : st.getSuccs st.env.goalId = .ok (st, []) ∧ st.getLazySuccs st.env.goalId = .ok (st, []) := by
  unfold MEnv.getSuccs MEnv.getLazySuccs
  rw [succsBy_goal, succsBy_goal]
  exact ⟨rfl, rfl⟩

/-! ## C129: predecessors -/

theorem actionCost_valid {c : XCfg} {ls : List MLev} {x y : Int} {a : XAct} (h : ¬ MEnv.actionCost c ls x y a ≥ INFINITECOST) :
    MEnv.valid c ls x y = true ∧ MEnv.valid c ls (x + a.dX) (y + a.dY) = true := by
  unfold MEnv.actionCost at h
  split_ifs at h with h0
  · exact absurd (Nat.le_refl _) h
  · unfold costWith at h0
    split_ifs at h0 with h1 h2 h3
    · exact absurd (Nat.le_refl _) h0
    · exact absurd (Nat.le_refl _) h0
    · exact absurd (Nat.le_refl _) h0
    · exact ⟨by simpa using h1, by simpa using h2⟩

theorem predAct_iff {c : XCfg} {ls : List MLev} {q : XKey} {a : XAct} (hq : Utils.normDiscTheta a.endTheta c.T = q.2.2)
    {p : XKey} {n : Nat} : MEnv.predAct ls c q a = some (p, n) ↔ p.2.2 = a.startTheta ∧ MEnv.succAct ls c p a = some (q, n) := by
  unfold MEnv.predAct MEnv.succAct source
  have e : ∀ x y : Int, x - y + y = x := by intros; omega
  constructor
  · intro h
    split_ifs at h with h1 h2
    cases h
    refine ⟨rfl, ?_⟩
    dsimp only
    unfold target
    dsimp only
    have := (actionCost_valid h2).2
    rw [e, e] at this
    rw [e, e, if_neg (by simp [this]), if_neg h2, hq]
  · rintro ⟨h1, h2⟩
    split_ifs at h2 with k1 k2
    unfold target at h2
    simp only [Option.some.injEq, Prod.mk.injEq] at h2
    obtain ⟨hq', hn⟩ := h2
    have e1 : q.1 - a.dX = p.1 := by rw [← hq']; dsimp only; omega
    have e2 : q.2.1 - a.dY = p.2.1 := by rw [← hq']; dsimp only; omega
    have := (actionCost_valid k2).1
    rw [e1, e2, ← h1, if_neg (by simp [this]), if_neg k2, hn]

/-- what GetPreds returns -/
theorem preds_char (h : MHist s ops st) {id : Nat} {q : XKey} (hq : st.env.getCoord id = .ok q) :
    ∃ st' l, st.env.predsBy (MEnv.predAct st.levels) id = .ok (st', l) ∧ XInv st' ∧ Ext st.env st' ∧ ∀ p c a,
      (∃ j, (j, c, a) ∈ l ∧ st'.getCoord j = .ok p) ↔
        0 ≤ p.2.2 ∧ p.2.2 < s.T ∧ a ∈ st.env.cfg.acts p.2.2 ∧ MEnv.succAct st.levels st.env.cfg p a = some (q, c) := by
  obtain ⟨inv, -⟩ := mhist_inv h
  have hk := getCoord_ok.mp hq
  obtain ⟨st', l, h1, h2, h3, h4⟩ := predsBy_ok h.1 inv.env (MEnv.predAct_inRange st.levels) hk
  refine ⟨st', l, h1, h2, h3, ?_⟩
  intro p c a
  constructor
  · rintro ⟨j, hj, hp⟩
    have : (st'.tab.coord j, c, a) ∈ l.map (fun e => (st'.tab.coord e.1, e.2.1, e.2.2)) := List.mem_map.mpr ⟨_, hj, rfl⟩
    rw [h4, List.mem_filterMap] at this
    obtain ⟨a', ha', e⟩ := this
    obtain ⟨u, u0, uT, hu, hsu, hn⟩ := (mem_preds inv.env.stc h.1).mp ha'
    cases hs : MEnv.predAct st.levels st.env.cfg q a' with
    | none => rw [hs] at e; cases e
    | some r =>
      rw [hs] at e
      simp only [Option.map_some, Option.some.injEq, Prod.mk.injEq] at e
      obtain ⟨e1, e2, e3⟩ := e
      subst e3
      rw [getCoord_ok, ← e1] at hp
      cases hp
      have := (predAct_iff hn (p := r.1) (n := r.2)).mp hs
      rw [← e2, this.1, hsu]
      rw [inv.env.stc.T] at uT
      exact ⟨u0, uT, hu, this.2⟩
  · rintro ⟨p0, pT, ha, hs⟩
    have hst : a.startTheta = p.2.2 := by
      rw [inv.env.stc.acts] at ha
      obtain ⟨m, -, -, -, -, hst, -⟩ := mem_actsFor h.1 p0 pT ha
      exact hst
    have hn : Utils.normDiscTheta a.endTheta st.env.cfg.T = q.2.2 := by
      unfold MEnv.succAct at hs
      split_ifs at hs
      simp only [Option.some.injEq, Prod.mk.injEq] at hs
      rw [← hs.1]; rfl
    have hpa := (predAct_iff hn (p := p) (n := c)).mpr ⟨hst.symm, hs⟩
    have : (some p, c, a) ∈ (st.env.cfg.preds q.2.2).filterMap (fun a => (MEnv.predAct st.levels st.env.cfg q a).map (fun r => (some r.1, r.2, a))) := by
      rw [List.mem_filterMap]
      refine ⟨a, (mem_preds inv.env.stc h.1).mpr ⟨p.2.2, p0, ?_, ha, hst, hn⟩, by rw [hpa]; rfl⟩
      rw [inv.env.stc.T]; exact pT
    rw [← h4, List.mem_map] at this
    obtain ⟨⟨j, c', a'⟩, hj, e⟩ := this
    simp only [Prod.mk.injEq] at e
    obtain ⟨e1, rfl, rfl⟩ := e
    exact ⟨j, hj, getCoord_ok.mpr e1⟩

/-- **C129** GetPreds, of any state (the goal included): the state `p` is reported with cost `c` for the `i`-th primitive of its heading exactly when with the current costs
at all levels this primitive leads from `p` to the state at cost `c`. -/
theorem preds_exact (h : MHist s ops st) {id : Nat} {q : XKey} (hq : st.env.getCoord id = .ok q) :
    ∃ st' l, st.getPreds id = .ok (st', l) ∧ st'.env.cfg = st.env.cfg ∧ st'.lev = st.lev ∧ st'.env.startId = st.env.startId ∧ st'.env.goalId = st.env.goalId ∧
      (∀ i m (p : XKey) c, 0 ≤ p.2.2 → p.2.2 < (s.T : Int) → (primsOf s p.2.2)[i]? = some m →
        ((∃ j a, (j, c, a) ∈ l ∧ a.aind = i ∧ st'.env.getCoord j = .ok p) ↔ MEdge s (costs s (baseCalls ops)) (levelsOf s ops) m p q c)) ∧
      ∀ e ∈ l, ∃ p, st'.env.getCoord e.1 = .ok p ∧ InRange s p ∧ e.2.2.aind < (primsOf s p.2.2).length := by
  obtain ⟨inv, eg, -, -, -, el⟩ := mhist_inv h
  obtain ⟨st', l, h1, h2, h3, h4⟩ := preds_char h hq
  refine ⟨{ st with env := st' }, l, by unfold MEnv.getPreds; rw [h1]; rfl, h3.cfg, rfl, h3.startId, h3.goalId, ?_, ?_⟩
  · intro i m p c p0 pT hm
    rw [← eg, ← el, ← MEnv.succAct_iff inv.env.stc h.1 inv.lst (i := i) hm p0 pT]
    constructor
    · rintro ⟨j, a, hj, rfl, hp⟩
      obtain ⟨-, -, ha, hs⟩ := (h4 p c a).mp ⟨j, hj, hp⟩
      obtain ⟨m', hm', ea⟩ := (mem_acts_iff inv h.1 p0 pT).mp ha
      rw [hm] at hm'; cases hm'
      rw [← ea]; exact hs
    · intro hs
      have ha : mkAct s.cs s.foot i m ∈ st.env.cfg.acts p.2.2 := by rw [inv.env.stc.acts]; exact act_of_prim hm
      obtain ⟨j, hj, hp⟩ := (h4 p c _).mpr ⟨p0, pT, ha, hs⟩
      exact ⟨j, _, hj, rfl, hp⟩
  · rintro ⟨j, c, a⟩ hj
    obtain ⟨st2, l2, g1, g2, g3, g4⟩ := predsBy_ok h.1 inv.env (MEnv.predAct_inRange st.levels) (getCoord_ok.mp hq)
    have hsame : st2 = st' ∧ l2 = l := by
      have := g1.symm.trans h1; cases this; exact ⟨rfl, rfl⟩
    obtain ⟨rfl, rfl⟩ := hsame
    have : (st2.tab.coord j, c, a) ∈ l2.map (fun e => (st2.tab.coord e.1, e.2.1, e.2.2)) := List.mem_map.mpr ⟨_, hj, rfl⟩
    rw [g4, List.mem_filterMap] at this
    obtain ⟨a', ha', e⟩ := this
    cases hs : MEnv.predAct st.levels st.env.cfg q a' with
    | none => rw [hs] at e; cases e
    | some r =>
      rw [hs] at e
      simp only [Option.map_some, Option.some.injEq, Prod.mk.injEq] at e
      have hp : st2.getCoord j = .ok r.1 := getCoord_ok.mpr e.1.symm
      refine ⟨r.1, hp, ?_, ?_⟩
      · have := inRange_of_coord g2 (getCoord_ok.mp hp)
        rw [g3.cfg] at this
        exact inv.env.stc.inRange.mp this
      · obtain ⟨p0, pT, ha, -⟩ := (h4 r.1 c a).mp ⟨j, hj, hp⟩
        obtain ⟨m', hm', -⟩ := (mem_acts_iff inv h.1 p0 pT).mp ha
        exact (List.getElem?_eq_some_iff.mp hm').1

/-- **C129** Forward and backward search see the same graph. -/
theorem succs_preds_dual (h : MHist s ops st) {a b : Nat} {p q : XKey} (ha : st.env.getCoord a = .ok p) (hb : st.env.getCoord b = .ok q) (hg : a ≠ st.env.goalId) :
    ∃ s1 ls s2 lp, st.getSuccs a = .ok (s1, ls) ∧ st.getPreds b = .ok (s2, lp) ∧ ∀ c x, (b, c, x) ∈ ls ↔ (a, c, x) ∈ lp := by
  obtain ⟨inv, -⟩ := mhist_inv h
  have hk := getCoord_ok.mp ha
  obtain ⟨s1, ls, h1, h2, h3, h4⟩ := succsBy_ok inv.env (MEnv.succAct_inRange inv.env.stc st.levels) hg hk
  obtain ⟨s2, lp, g1, g2, g3, g4⟩ := preds_char h hb
  have hr := (inv.env.stc.inRange.mp (inRange_of_coord inv.env.x hk)).2
  refine ⟨{ st with env := s1 }, ls, { st with env := s2 }, lp, by unfold MEnv.getSuccs; rw [h1]; rfl, by unfold MEnv.getPreds; rw [g1]; rfl, ?_⟩
  intro c x
  have hb1 := coord_prefix h3.pre (getCoord_ok.mp hb)
  have ha2 := coord_prefix g3.pre hk
  constructor
  · intro hm
    have : (s1.tab.coord b, c, x) ∈ ls.map (fun e => (s1.tab.coord e.1, e.2.1, e.2.2)) := List.mem_map.mpr ⟨_, hm, rfl⟩
    rw [h4, List.mem_filterMap] at this
    obtain ⟨x', hx', e⟩ := this
    cases hs : MEnv.succAct st.levels st.env.cfg p x' with
    | none => rw [hs] at e; cases e
    | some r =>
      rw [hs, hb1] at e
      simp only [Option.map_some, Option.some.injEq, Prod.mk.injEq] at e
      obtain ⟨e1, e2, e3⟩ := e
      subst e3
      obtain ⟨j, hj, hp⟩ := (g4 p c x').mpr ⟨hr.1, hr.2, hx', by rw [hs, ← e1, ← e2]⟩
      rwa [coord_inj g2.tab (getCoord_ok.mp hp) ha2] at hj
  · intro hm
    obtain ⟨-, -, hx, hs⟩ := (g4 p c x).mp ⟨a, hm, getCoord_ok.mpr ha2⟩
    have : (some q, c, x) ∈ (st.env.cfg.acts p.2.2).filterMap (fun a => (MEnv.succAct st.levels st.env.cfg p a).map (fun r => (some r.1, r.2, a))) := by
      rw [List.mem_filterMap]; exact ⟨_, hx, by rw [hs]; rfl⟩
    rw [← h4, List.mem_map] at this
    obtain ⟨⟨j, c', a'⟩, hj, e⟩ := this
    simp only [Prod.mk.injEq] at e
    obtain ⟨e1, rfl, rfl⟩ := e
    rwa [coord_inj h2.tab e1 hb1] at hj

/-! ## C130: what the additional levels change -/

theorem exists_maxCost (grid : Int → Int → Nat) (s : Setup) (m : MPrim) (p : XKey) : ∃ v, MaxCost grid (Visited s m p) v := ⟨_, maxAt_max grid m p⟩

/-- **C130** Soundness: every transition of the environment with levels is a transition at the base level, of no smaller cost, and, with its own footprint and thresholds, at every additional level, apart from the cost. -/
theorem medge_sound {grid : Int → Int → Nat} {ls : List Lvl} {m : MPrim} {p q : XKey} {c : Nat} (e : MEdge s grid ls m p q c) :
    (∃ cb, cb ≤ c ∧ Edge s grid m p q cb) ∧ ∀ l ∈ ls,
      InMap s (q.1, q.2.1) ∧ l.2 p.1 p.2.1 < s.obs ∧ l.2 q.1 q.2.1 < s.obs ∧ l.2 q.1 q.2.1 < l.1.inscr ∧
      (∀ z, Visited s m p z → InMap s z ∧ l.2 z.1 z.2 < l.1.inscr ∧ m.cost * (l.2 z.1 z.2 + 1) ≤ c) ∧
      (l.1.poly = true → (∃ z, Visited s m p z ∧ l.1.circ ≤ l.2 z.1 z.2) → ∀ r, SweptBy l.1.foot m.pts r → InMap s (shift p r) ∧ l.2 (shift p r).1 (shift p r).2 < s.obs) := by
  obtain ⟨v, w, hv, hw, hc, eb⟩ := MEdge.base e
  refine ⟨⟨_, ?_, eb⟩, ?_⟩
  · rw [hc]; exact Nat.mul_le_mul_left _ (by omega)
  · intro l hl
    refine ⟨e.dst.1, e.src.2.2 l hl, (e.dst.2.2.2 l hl).1, (e.dst.2.2.2 l hl).2, ?_, ?_⟩
    · intro z hz
      refine ⟨(e.centre z hz).1, ((e.centre z hz).2.2 l hl).2, ?_⟩
      rw [hc]
      have := hw.1 l hl z hz
      exact Nat.mul_le_mul_left _ (by omega)
    · rintro hp ⟨z, hz, hzc⟩
      refine e.sweptAt l hl hp ?_
      intro u hu
      exact Nat.le_trans hzc (hu.1 z hz)

theorem exists_maxOver (s : Setup) (m : MPrim) (p : XKey) (ls : List Lvl) : ∃ w, MaxOver ls (Visited s m p) w := by
  induction ls with
  | nil => exact ⟨0, by simp, .inl rfl⟩
  | cons l ls ih =>
    obtain ⟨w, h1, h2⟩ := ih
    obtain ⟨v, h3, h4⟩ := exists_maxCost l.2 s m p
    refine ⟨max v w, ?_, ?_⟩
    · intro l' hl' z hz
      rcases List.mem_cons.mp hl' with rfl | hl'
      · exact Nat.le_trans (h3 z hz) (Nat.le_max_left _ _)
      · exact Nat.le_trans (h1 l' hl' z hz) (Nat.le_max_right _ _)
    · rcases Nat.le_total v w with hvw | hvw
      · rw [Nat.max_eq_right hvw]
        rcases h2 with h2 | ⟨l', hl', z, hz, h2⟩
        · exact .inl h2
        · exact .inr ⟨l', List.mem_cons_of_mem _ hl', z, hz, h2⟩
      · rw [Nat.max_eq_left hvw]
        rcases h4 with h4 | ⟨z, hz, h4⟩
        · exact .inl h4
        · exact .inr ⟨l, List.mem_cons_self, z, hz, h4⟩

/-- **C133** What is missing: a primitive that is a transition at the base level, and at every additional level considered on its own, is a transition of the environment with levels
provided that the inscribed thresholds of the levels are no more than the obstacle threshold and, if the robot is a polygon at the base level, that the cells swept by the base
footprint are free at all the additional levels too (`hn`: the swept cells are computed from the poses of the primitive, as for all primitives that are read from a
file).  Without the last condition this is false: `base_footprint_checked_everywhere` (Props/MLevEx.lean). -/
theorem medge_of_levels {grid : Int → Int → Nat} {ls : List Lvl} {m : MPrim} {p q : XKey} {cb : Nat} (hn : m.swept = none) (eb : Edge s grid m p q cb)
    (hl : ∀ l ∈ ls, ∃ c, Edge (ofLevel s l.1) l.2 m p q c) (ho : ∀ l ∈ ls, l.1.inscr ≤ s.obs)
    (hs : s.poly = true → ∀ l ∈ ls, ∀ r, Swept s m r → l.2 (shift p r).1 (shift p r).2 < s.obs) : ∃ c, MEdge s grid ls m p q c := by
  obtain ⟨v, hv, hc⟩ := eb.cost
  obtain ⟨w, hw⟩ := exists_maxOver s m p ls
  refine ⟨m.cost * (max v w + 1), eb.mem, eb.heading, eb.endX, eb.endY, eb.endT, ⟨eb.src.1, eb.src.2, ?_⟩, ⟨eb.dst.1, eb.dst.2.1, eb.dst.2.2, ?_⟩, ?_, ?_, ?_,
    ⟨v, w, hv, hw, rfl⟩, ?_⟩
  · intro l h
    obtain ⟨c, e⟩ := hl l h
    exact e.src.2
  · intro l h
    obtain ⟨c, e⟩ := hl l h
    exact ⟨e.dst.2.1, e.dst.2.2⟩
  · rintro _ ⟨r, hr, rfl⟩
    obtain ⟨b1, b2⟩ := eb.centre r hr
    refine ⟨b1, b2, ?_⟩
    intro l h
    obtain ⟨c, e⟩ := hl l h
    have h1 : l.2 (shift p r).1 (shift p r).2 < l.1.inscr := (e.centre r hr).2
    have := ho l h
    exact ⟨by omega, h1⟩
  · intro hp hh r hr
    obtain ⟨b1, b2⟩ := eb.swept hp hh r hr
    exact ⟨b1, b2, fun l h => hs hp l h r hr⟩
  · intro l h hp hh r hr
    obtain ⟨c, e⟩ := hl l h
    refine e.swept hp hh r ?_
    show SweptBy l.1.foot m.poses r
    unfold MPrim.poses
    rw [hn]
    exact hr
  · rcases Nat.le_total w v with h | h
    · rw [Nat.max_eq_left h, ← hc]; exact eb.finite
    · rw [Nat.max_eq_right h]
      rcases hw.2 with h0 | ⟨l, hl', z, hz, hzw⟩
      · have : w = v := by omega
        rw [this, ← hc]; exact eb.finite
      · obtain ⟨c, e⟩ := hl l hl'
        obtain ⟨u, hu, he⟩ := e.cost
        have h1 : l.2 z.1 z.2 ≤ u := hu.1 z (by obtain ⟨r, hr, hz⟩ := hz; exact .inr (.inr ⟨r, hr, hz⟩))
        have h2 := e.finite
        have h3 : m.cost * (w + 1) ≤ m.cost * (u + 1) := Nat.mul_le_mul_left _ (by omega)
        omega

/-- **C130** Without additional levels the transitions and costs are those of the base class. -/
theorem medge_nil {grid : Int → Int → Nat} {m : MPrim} {p q : XKey} {c : Nat} : MEdge s grid [] m p q c ↔ Edge s grid m p q c := by
  constructor
  · intro e
    obtain ⟨v, w, -, hw, hc, eb⟩ := MEdge.base e
    have hw0 : w = 0 := by
      rcases hw.2 with k | ⟨l, hl, -⟩
      · exact k
      · simp at hl
    subst hw0
    rw [Nat.max_zero] at hc
    rw [hc]; exact eb
  · intro e
    obtain ⟨v, hv, hc⟩ := e.cost
    refine ⟨e.mem, e.heading, e.endX, e.endY, e.endT, ⟨e.src.1, e.src.2, by simp⟩, ⟨e.dst.1, e.dst.2.1, e.dst.2.2, by simp⟩, ?_, ?_, by simp,
      ⟨v, 0, hv, ⟨by simp, .inl rfl⟩, by rw [Nat.max_zero]; exact hc⟩, e.finite⟩
    · rintro _ ⟨r, hr, rfl⟩
      obtain ⟨b1, b2⟩ := e.centre r hr
      exact ⟨b1, b2, by simp⟩
    · intro hp hv r hr
      obtain ⟨b1, b2⟩ := e.swept hp hv r hr
      exact ⟨b1, b2, by simp⟩

/-- cell costs that are nowhere lower -/
def Above (g g' : Int → Int → Nat) : Prop := ∀ x y, g x y ≤ g' x y

theorem maxCost_mono {g g' : Int → Int → Nat} (h : Above g g') {S : Int × Int → Prop} {v v' : Nat} (hv : MaxCost g S v) (hv' : MaxCost g' S v') : v ≤ v' := by
  rcases hv.2 with k | ⟨q, hq, k⟩
  · omega
  · have := hv'.1 q hq
    have := h q.1 q.2
    omega

/-- **C130** Monotonicity: raising costs of cells at any levels never adds a transition and never makes one cheaper. -/
theorem medge_mono {grid grid' : Int → Int → Nat} {ls ls' : List Lvl} (hg : Above grid grid')
    (hl : List.Forall₂ (fun (a b : Lvl) => a.1 = b.1 ∧ Above a.2 b.2) ls ls') {m : MPrim} {p q : XKey} {c' : Nat} (e : MEdge s grid' ls' m p q c') :
    ∃ c, c ≤ c' ∧ MEdge s grid ls m p q c := by
  have hmem : ∀ l ∈ ls, ∃ l' ∈ ls', l.1 = l'.1 ∧ Above l.2 l'.2 := by
    clear e
    induction hl with
    | nil => intro l h; cases h
    | cons hab _ ih =>
      intro l h
      rcases List.mem_cons.mp h with rfl | h
      · exact ⟨_, by simp, hab⟩
      · obtain ⟨l', h1, h2⟩ := ih l h
        exact ⟨l', by simp [h1], h2⟩
  have low : ∀ {x y : Int} {n : Nat}, (∀ l ∈ ls', l.2 x y < n) → ∀ l ∈ ls, l.2 x y < n := by
    intro x y n h l hl
    obtain ⟨l', h1, -, h3⟩ := hmem l hl
    exact Nat.lt_of_le_of_lt (h3 x y) (h l' h1)
  obtain ⟨v', w', hv', hw', hc'⟩ := e.cost
  have hlist : ∃ L : List (Int × Int), ∀ z, (z = (p.1, p.2.1) ∨ z = (q.1, q.2.1) ∨ Visited s m p z) ↔ z ∈ L := by
    refine ⟨(p.1, p.2.1) :: (q.1, q.2.1) :: (intermCells s.cs m.pts).map (shift p), fun z => ?_⟩
    rw [List.mem_cons, List.mem_cons, List.mem_map]
    constructor
    · rintro (h | h | ⟨r, hr, h⟩)
      · exact .inl h
      · exact .inr (.inl h)
      · exact .inr (.inr ⟨r, mem_intermCells.mpr hr, h.symm⟩)
    · rintro (h | h | ⟨r, hr, h⟩)
      · exact .inl h
      · exact .inr (.inl h)
      · exact .inr (.inr ⟨r, mem_intermCells.mp hr, h.symm⟩)
  obtain ⟨L, hL⟩ := hlist
  have hv : ∃ v, MaxCost grid (fun z => z = (p.1, p.2.1) ∨ z = (q.1, q.2.1) ∨ Visited s m p z) v := by
    obtain ⟨-, t2, t3⟩ := maxAt_spec 0 0 grid L 0
    refine ⟨maxAt 0 0 grid L 0, ?_, ?_⟩
    · intro z hz; have := t2 z ((hL z).mp hz); simpa using this
    · rcases t3 with k | ⟨z, hz, k⟩
      · exact .inl k
      · exact .inr ⟨z, (hL z).mpr hz, by simpa using k⟩
  have hw : ∃ w, MaxOver ls (Visited s m p) w := by
    clear hl hmem low
    induction ls with
    | nil => exact ⟨0, by simp, .inl rfl⟩
    | cons a ls ih =>
      obtain ⟨w, h1, h2⟩ := ih
      obtain ⟨u, hu⟩ := exists_maxCost a.2 s m p
      refine ⟨max u w, ?_, ?_⟩
      · intro l hl z hz
        rcases List.mem_cons.mp hl with rfl | hl
        · have := hu.1 z hz; omega
        · have := h1 l hl z hz; omega
      · rcases Nat.le_total u w with k | k
        · rw [Nat.max_eq_right k]
          rcases h2 with h2 | ⟨l, hl, z, hz, h2⟩
          · exact .inl h2
          · exact .inr ⟨l, by simp [hl], z, hz, h2⟩
        · rw [Nat.max_eq_left k]
          rcases hu.2 with h2 | ⟨z, hz, h2⟩
          · exact .inl h2
          · exact .inr ⟨a, by simp, z, hz, h2⟩
  obtain ⟨v, hv⟩ := hv
  obtain ⟨w, hw⟩ := hw
  have hvv := maxCost_mono hg hv hv'
  have hww : w ≤ w' := by
    rcases hw.2 with k | ⟨l, hl, z, hz, k⟩
    · omega
    · obtain ⟨l', h1, -, h3⟩ := hmem l hl
      have := hw'.1 l' h1 z hz
      have := h3 z.1 z.2
      omega
  have hle : m.cost * (max v w + 1) ≤ c' := by rw [hc']; exact Nat.mul_le_mul_left _ (by omega)
  refine ⟨_, hle, e.mem, e.heading, e.endX, e.endY, e.endT, ⟨e.src.1, Nat.lt_of_le_of_lt (hg _ _) e.src.2.1, low e.src.2.2⟩,
    ⟨e.dst.1, Nat.lt_of_le_of_lt (hg _ _) e.dst.2.1, Nat.lt_of_le_of_lt (hg _ _) e.dst.2.2.1, ?_⟩, ?_, ?_, ?_, ⟨v, w, hv, hw, rfl⟩, ?_⟩
  · intro l hl
    obtain ⟨l', h1, h2, h3⟩ := hmem l hl
    have := e.dst.2.2.2 l' h1
    have := h3 q.1 q.2.1
    rw [h2]; omega
  · intro z hz
    obtain ⟨b1, b2, b3⟩ := e.centre z hz
    refine ⟨b1, Nat.lt_of_le_of_lt (hg _ _) b2, ?_⟩
    intro l hl
    obtain ⟨l', h1, h2, h3⟩ := hmem l hl
    have := b3 l' h1
    have := h3 z.1 z.2
    rw [h2]; omega
  · intro hp hc r hr
    obtain ⟨u, hu⟩ := exists_maxCost grid s m p
    have := e.swept hp (fun x hx => Nat.le_trans (hc u hu) (maxCost_mono hg hu hx)) r hr
    exact ⟨this.1, Nat.lt_of_le_of_lt (hg _ _) this.2.1, low this.2.2⟩
  · intro l hl hp hc r hr
    obtain ⟨l', h1, h2, h3⟩ := hmem l hl
    obtain ⟨u, hu⟩ := exists_maxCost l.2 s m p
    have := e.sweptAt l' h1 (by rw [← h2]; exact hp) (fun x hx => by rw [← h2]; exact Nat.le_trans (hc u hu) (maxCost_mono h3 hu hx)) r (by rw [← h2]; exact hr)
    exact ⟨this.1, Nat.lt_of_le_of_lt (h3 _ _) this.2⟩
  · exact Nat.lt_of_le_of_lt hle e.finite

/-! ## C131: queries about cells and configurations -/

/-- **C131** IsObstacle and GetMapCost of a map cell: the cell is an obstacle if it is one at some level (base included), and its cost is the largest over all levels. -/
theorem cell_queries (h : MHist s ops st) {x y : Int} (hin : InMap s (x, y)) :
    (∃ b, st.isObstacle x y = .ok b ∧ (b = true ↔ s.obs ≤ costs s (baseCalls ops) x y ∨ ∃ l ∈ levelsOf s ops, s.obs ≤ l.2 x y)) ∧
    ∃ v, st.getMapCost x y = .ok v ∧ costs s (baseCalls ops) x y ≤ v ∧ (∀ l ∈ levelsOf s ops, l.2 x y ≤ v) ∧
      (v = costs s (baseCalls ops) x y ∨ ∃ l ∈ levelsOf s ops, l.2 x y = v) := by
  obtain ⟨inv, eg, -, -, -, el⟩ := mhist_inv h
  have hw := inv.env.stc.within.mpr hin
  unfold isObstacle getMapCost
  rw [if_pos hw, if_pos hw, ← eg, ← el, inv.env.stc.obs]
  constructor
  · refine ⟨_, rfl, ?_⟩
    split_ifs with hb
    · simp [hb]
    · simp only [ge_iff_le] at hb
      simp [hb, lvl]
  · have key : ∀ (ls : List MLev) (m : Nat), m ≤ ls.foldl (fun m l => max m (l.grid x y)) m ∧ (∀ l ∈ ls, l.grid x y ≤ ls.foldl (fun m l => max m (l.grid x y)) m) ∧
        (ls.foldl (fun m l => max m (l.grid x y)) m = m ∨ ∃ l ∈ ls, l.grid x y = ls.foldl (fun m l => max m (l.grid x y)) m) := by
      intro ls
      induction ls with
      | nil => intro m; simp
      | cons a ls ih =>
        intro m
        rw [List.foldl_cons]
        obtain ⟨h1, h2, h3⟩ := ih (max m (a.grid x y))
        refine ⟨by omega, ?_, ?_⟩
        · intro l hl
          rcases List.mem_cons.mp hl with rfl | hl
          · omega
          · exact h2 l hl
        · rcases h3 with h3 | ⟨l, hl, h3⟩
          · rcases Nat.le_total m (a.grid x y) with k | k
            · right; exact ⟨a, by simp, by rw [h3]; omega⟩
            · left; rw [h3]; omega
          · right; exact ⟨l, by simp [hl], h3⟩
    obtain ⟨h1, h2, h3⟩ := key st.levels (st.env.cfg.grid x y)
    refine ⟨_, rfl, h1, ?_, ?_⟩
    · intro l hl
      obtain ⟨l', hl', rfl⟩ := List.mem_map.mp hl
      exact h2 l' hl'
    · rcases h3 with h3 | ⟨l, hl, h3⟩
      · exact .inl h3
      · exact .inr ⟨lvl l, List.mem_map.mpr ⟨l, hl, rfl⟩, h3⟩

/-- the robot at a configuration: the centre of the cell, and the angle of the heading -/
def poseAt (s : Setup) (th : Int → ℚ) (x y t : Int) : ℚ × ℚ × ℚ := (Utils.discXY2Cont x s.cs, Utils.discXY2Cont y s.cs, th t)

/-- **C131** IsValidConfiguration: at every level, all the cells covered by the footprint of this level are free map cells of this level. -/
theorem config_exact (h : MHist s ops st) (th : Int → ℚ) (x y t : Int) :
    st.isValidConfig s.foot th x y t = true ↔ ∀ f ∈ (s.foot, costs s (baseCalls ops)) :: (levelsOf s ops).map (fun l => (l.1.foot, l.2)),
      ∀ r ∈ f.1 (poseAt s th x y t), InMap s r ∧ f.2 r.1 r.2 < s.obs := by
  obtain ⟨inv, eg, -, -, -, el⟩ := mhist_inv h
  have key : ∀ (g : Int → Int → Nat) (cells : List (Int × Int)), footFree st.env.cfg g cells = true ↔ ∀ r ∈ cells, InMap s r ∧ g r.1 r.2 < s.obs := by
    intro g cells
    unfold footFree
    rw [List.all_eq_true]
    constructor
    · intro h r hr
      have := h r hr
      rw [Bool.and_eq_true, inv.env.stc.within, decide_eq_true_iff, inv.env.stc.obs] at this
      exact this
    · intro h r hr
      rw [Bool.and_eq_true, inv.env.stc.within, decide_eq_true_iff, inv.env.stc.obs]
      exact h r hr
  unfold MEnv.isValidConfig XEnv.isValidConfig
  rw [inv.env.stc.cs]
  dsimp only
  rw [← eg, ← el]
  have e2 : ∀ b c : Bool, (if b = false then false else c) = true ↔ b = true ∧ c = true := by decide
  rw [e2, key, List.all_eq_true]
  constructor
  · rintro ⟨h1, h2⟩ f hf
    rcases List.mem_cons.mp hf with rfl | hf
    · exact h1
    · obtain ⟨l', hl', rfl⟩ := List.mem_map.mp hf
      obtain ⟨l, hl, rfl⟩ := List.mem_map.mp hl'
      exact (key _ _).mp (h2 l hl)
  · intro hh
    refine ⟨hh (s.foot, st.env.cfg.grid) (by simp), fun l hl => (key _ _).mpr (hh (l.inp.foot, l.grid) ?_)⟩
    exact List.mem_cons_of_mem _ (List.mem_map.mpr ⟨lvl l, List.mem_map.mpr ⟨l, hl, rfl⟩, rfl⟩)

end Sbpl.MLevProps
