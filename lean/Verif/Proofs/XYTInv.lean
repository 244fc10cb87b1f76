import Verif.Proofs.XYT
/-! # `EnvironmentNAVXYTHETALAT`: all calls keep the invariant -/

namespace Sbpl.XEnv
open StateTable XCfg XSpec

/-- the parts of the configuration that never change -/
structure Static (s : Setup) (c : XCfg) : Prop where
  W : c.W = s.W
  H : c.H = s.H
  T : c.T = s.T
  cs : c.cs = s.cs
  obs : c.obs = s.obs
  inscr : c.inscr = s.inscr
  circ : c.circ = s.circ
  poly : c.poly = s.poly
  acts : c.acts = actsFor s.cs s.foot s.prims
  preds : c.preds = fun t => (allActs s.T (actsFor s.cs s.foot s.prims)).filter (fun a => decide (predIdx s.T a = t))
  aff : c.aff = affPreds (allActs s.T (actsFor s.cs s.foot s.prims))
  idx : ∀ a ∈ allActs s.T (actsFor s.cs s.foot s.prims), 0 ≤ predIdx s.T a ∧ predIdx s.T a < s.T
  T0 : 0 < s.T

/-- the whole invariant -/
structure SInv (s : Setup) (st : XEnv) : Prop where
  x : XInv st
  stc : Static s st.cfg
  startC : st.tab.coord st.startId = some st.cfg.start
  goalC : st.tab.coord st.goalId = some st.cfg.goal

theorem Static.inRange {s : Setup} {c : XCfg} (h : Static s c) {k : XKey} : c.inRange k = true ↔ InRange s k := by
  rw [inRange_iff, h.W, h.H, h.T]; rfl

theorem SInv.ext {s : Setup} {st st' : XEnv} (i : SInv s st) (e : Ext st st') (x : XInv st') : SInv s st' :=
  ⟨x, by rw [e.cfg]; exact i.stc, by rw [e.cfg, e.startId]; exact coord_prefix e.pre i.startC,
   by rw [e.cfg, e.goalId]; exact coord_prefix e.pre i.goalC⟩

theorem precompute_ok {T : Nat} {cs : ℚ} {foot : ℚ × ℚ × ℚ → List (Int × Int)} {prims : List MPrim} {r : (Int → List XAct) × (Int → List XAct)}
    (h : precompute T cs foot prims = .ok r) :
    0 < T ∧ r = (actsFor cs foot prims, fun t => (allActs T (actsFor cs foot prims)).filter (fun a => decide (predIdx T a = t))) ∧
    (∀ a ∈ allActs T (actsFor cs foot prims), 0 ≤ predIdx T a ∧ predIdx T a < T) ∧
    (∀ t : Nat, t < T → (actsFor cs foot prims t).length = prims.length / T) := by
  unfold precompute at h
  split_ifs at h with h1 h2 h3 h4 h5 h6
  cases h
  refine ⟨by omega, rfl, ?_, ?_⟩
  · intro a ha
    rw [Bool.not_eq_true, List.any_eq_false] at h4
    have := h4 a ha
    rw [decide_eq_true_iff] at this
    omega
  · intro t ht
    rw [Bool.not_eq_true, List.any_eq_false] at h3 h6
    have a := h3 t (List.mem_range.mpr ht)
    have b := h6 t (List.mem_range.mpr ht)
    rw [decide_eq_true_iff] at a b
    omega

theorem init_ok {s : Setup} {st : XEnv} (ok : SetupOk s) (h : init s = .ok st) :
    SInv s st ∧ st.cfg.start = s.start ∧ st.cfg.goal = s.goal ∧ st.cfg.grid = fun x y => s.map (x + y * s.W) := by
  unfold init at h
  split_ifs at h with h1 h2
  split at h
  next => cases h
  next acts preds hp =>
    obtain ⟨t0, hr, hidx, -⟩ := precompute_ok hp
    simp only [Prod.mk.injEq] at hr
    obtain ⟨rfl, rfl⟩ := hr
    have i0 : XInv (fresh s (actsFor s.cs s.foot s.prims)
        (fun t => (allActs s.T (actsFor s.cs s.foot s.prims)).filter (fun a => decide (predIdx s.T a = t)))) :=
      ⟨ok.headings, inv_empty, by simp [StateTable.empty, fresh], fun _ => Nat.le_refl _⟩
    obtain ⟨st1, a, g1, g2, g3, g4, -⟩ := getState_ok i0 (k := s.start) (by
      rw [inRange_iff]; show (0 ≤ _ ∧ _ < s.W ∧ 0 ≤ _ ∧ _ < s.H) ∧ 0 ≤ _ ∧ _ < (s.T : Int); omega)
    rw [g1] at h
    dsimp only at h
    obtain ⟨st2, b, k1, k2, k3, k4, -⟩ := getState_ok g2 (k := s.goal) (by
      rw [inRange_iff, g3.cfg]; show (0 ≤ _ ∧ _ < s.W ∧ 0 ≤ _ ∧ _ < s.H) ∧ 0 ≤ _ ∧ _ < (s.T : Int); omega)
    rw [k1] at h
    dsimp only at h
    cases h
    have e := g3.trans k3
    have ec := e.cfg
    refine ⟨⟨⟨?_, ?_, ?_, ?_⟩, ?_, ?_, ?_⟩, ?_, ?_, ?_⟩
    · exact k2.T128
    · exact k2.tab
    · exact k2.rng
    · exact k2.stamp
    · dsimp only; rw [ec]
      exact ⟨rfl, rfl, rfl, rfl, rfl, rfl, rfl, rfl, rfl, rfl, rfl, hidx, t0⟩
    · dsimp only; rw [ec]; exact coord_prefix k3.pre g4
    · dsimp only; rw [ec]; exact k4
    · dsimp only; rw [ec]; rfl
    · dsimp only; rw [ec]; rfl
    · dsimp only; rw [ec]; rfl

/-! ## actions -/

theorem mem_actsFor {s : Setup} {t : Int} {a : XAct} (ok : SetupOk s) (t0 : 0 ≤ t) (tT : t < s.T) (h : a ∈ actsFor s.cs s.foot s.prims t) :
    ∃ m, (s.prims.filter (fun m => decide (m.startTheta = t)))[a.aind]? = some m ∧ m ∈ s.prims ∧ m.startTheta = t ∧
      a = mkAct s.cs s.foot a.aind m ∧ a.startTheta = t ∧ a.endTheta = m.endTheta ∧ a.dX = m.dX ∧ a.dY = m.dY := by
  unfold actsFor at h
  rw [List.mem_mapIdx] at h
  obtain ⟨i, hi, e⟩ := h
  have hm : (s.prims.filter (fun m => decide (m.startTheta = t)))[i] ∈ s.prims.filter (fun m => decide (m.startTheta = t)) := List.getElem_mem hi
  obtain ⟨h1, h2⟩ := List.mem_filter.mp hm
  have h2 := of_decide_eq_true h2
  have p := ok.prims _ h1
  have hT := ok.headings
  subst e
  refine ⟨_, List.getElem?_eq_getElem hi, h1, h2, rfl, ?_, ?_, ?_, ?_⟩
  · show toChar _ = t
    rw [h2]; exact toChar_id (by omega) (by omega)
  · exact toChar_id p.2.2.2.2.1 p.2.2.2.2.2
  · exact toChar_id p.1 p.2.1
  · exact toChar_id p.2.2.1 p.2.2.2.1

theorem act_of_prim {s : Setup} {t : Int} {i : Nat} {m : MPrim} (h : (s.prims.filter (fun m => decide (m.startTheta = t)))[i]? = some m) :
    mkAct s.cs s.foot i m ∈ actsFor s.cs s.foot s.prims t := by
  unfold actsFor
  rw [List.mem_mapIdx]
  obtain ⟨hi, e⟩ := List.getElem?_eq_some_iff.mp h
  exact ⟨i, hi, by rw [e]⟩

theorem mem_allActs {T : Nat} {acts : Int → List XAct} {a : XAct} : a ∈ allActs T acts ↔ ∃ t : Int, 0 ≤ t ∧ t < T ∧ a ∈ acts t := by
  unfold allActs
  rw [List.mem_flatMap]
  constructor
  · rintro ⟨t, h1, h2⟩
    exact ⟨t, by omega, by exact_mod_cast List.mem_range.mp h1, h2⟩
  · rintro ⟨t, h1, h2, h3⟩
    refine ⟨t.toNat, List.mem_range.mpr (by omega), ?_⟩
    rw [Int.toNat_of_nonneg h1]; exact h3

theorem normDisc_range {t n : Int} (hn : 0 < n) : 0 ≤ Utils.normDiscTheta t n ∧ Utils.normDiscTheta t n < n :=
  ⟨(UtilsProps.normDiscTheta_residue t hn).1, (UtilsProps.normDiscTheta_residue t hn).2.1⟩

/-- the index of PredActionsV is the normalised final angle -/
theorem predIdx_norm {T : Nat} {a : XAct} (h : 0 ≤ predIdx T a ∧ predIdx T a < T) : predIdx T a = Utils.normDiscTheta a.endTheta T := by
  have hT : (0 : Int) < T := by omega
  refine UtilsProps.residue_unique (t := a.endTheta) (n := T) ?_ (UtilsProps.normDiscTheta_residue _ hT)
  refine ⟨h.1, h.2, ?_⟩
  unfold predIdx
  split_ifs
  · exact ⟨-1, by omega⟩
  · exact ⟨0, by omega⟩

theorem valid_within {c : XCfg} {x y : Int} (h : ¬ c.valid x y = false) : c.within x y = true := by
  rw [Bool.not_eq_false] at h
  unfold valid at h
  exact (Bool.and_eq_true _ _ ▸ h).1

/-- results of the four kinds of expansions are coordinates of states -/
theorem succ_inRange {s : Setup} {c : XCfg} (h : Static s c) {k : XKey} {a : XAct} (hv : ¬ c.valid (k.1 + a.dX) (k.2.1 + a.dY) = false) :
    c.inRange (c.target k a) = true := by
  have hT : (0 : Int) < c.T := by rw [h.T]; exact_mod_cast h.T0
  have := within_iff.mp (valid_within hv)
  rw [inRange_iff]
  exact ⟨this, normDisc_range hT⟩

theorem succAct_inRange {s : Setup} {c : XCfg} (h : Static s c) (k : XKey) (a : XAct) (r : XKey × Nat) (e : c.succAct k a = some r) :
    c.inRange r.1 = true := by
  unfold succAct at e
  split_ifs at e with h1
  cases e; exact succ_inRange h h1

theorem lazySuccAct_inRange {s : Setup} {c : XCfg} (h : Static s c) (k : XKey) (a : XAct) (r : XKey × Nat) (e : c.lazySuccAct k a = some r) :
    c.inRange r.1 = true := by
  unfold lazySuccAct at e
  split_ifs at e with h1
  cases e; exact succ_inRange h h1

theorem pred_inRange {c : XCfg} {k : XKey} {a : XAct} (hv : ¬ c.valid (k.1 - a.dX) (k.2.1 - a.dY) = false)
    (ha : 0 ≤ a.startTheta ∧ a.startTheta < c.T) : c.inRange (source k a) = true := by
  rw [inRange_iff]
  exact ⟨within_iff.mp (valid_within hv), ha⟩

theorem predAct_inRange {c : XCfg} (k : XKey) (a : XAct) (ha : 0 ≤ a.startTheta ∧ a.startTheta < c.T) (r : XKey × Nat)
    (e : c.predAct k a = some r) : c.inRange r.1 = true := by
  unfold predAct at e
  split_ifs at e with h1
  cases e; exact pred_inRange h1 ha

theorem lazyPredAct_inRange {c : XCfg} (k : XKey) (a : XAct) (ha : 0 ≤ a.startTheta ∧ a.startTheta < c.T) (r : XKey × Nat)
    (e : c.lazyPredAct k a = some r) : c.inRange r.1 = true := by
  unfold lazyPredAct at e
  split_ifs at e with h1
  cases e; exact pred_inRange h1 ha

theorem mem_preds {s : Setup} {c : XCfg} (h : Static s c) (ok : SetupOk s) {t : Int} {a : XAct} : a ∈ c.preds t ↔
    ∃ u : Int, 0 ≤ u ∧ u < c.T ∧ a ∈ c.acts u ∧ a.startTheta = u ∧ Utils.normDiscTheta a.endTheta c.T = t := by
  rw [h.preds, h.T, h.acts]
  dsimp only
  rw [List.mem_filter, decide_eq_true_iff]
  constructor
  · rintro ⟨h1, h2⟩
    rw [← h2, ← predIdx_norm (h.idx a h1)]
    obtain ⟨u, u0, uT, hu⟩ := mem_allActs.mp h1
    obtain ⟨m, -, -, -, -, hs, -⟩ := mem_actsFor ok u0 uT hu
    exact ⟨u, u0, uT, hu, hs, rfl⟩
  · rintro ⟨u, u0, uT, hu, -, hn⟩
    have := mem_allActs.mpr ⟨u, u0, uT, hu⟩
    exact ⟨this, by rw [predIdx_norm (h.idx a this), hn]⟩

/-! ## the calls -/

theorem getCoord_ok {st : XEnv} {id : Nat} {k : XKey} : st.getCoord id = .ok k ↔ st.tab.coord id = some k := by
  unfold getCoord
  split
  next h => rw [h]; simp
  next k' h => rw [h]; simp

/-- GetSuccs and GetLazySuccs of a state other than the goal -/
theorem succsBy_ok {s : Setup} {f : XCfg → XKey → XAct → Option (XKey × Nat)} {st : XEnv} (i : SInv s st)
    (hf : ∀ k a r, f st.cfg k a = some r → st.cfg.inRange r.1 = true) {id : Nat} {k : XKey} (hg : id ≠ st.goalId)
    (hk : st.tab.coord id = some k) :
    ∃ st' l, st.succsBy f id = .ok (st', l) ∧ XInv st' ∧ Ext st st' ∧
      l.map (fun e => (st'.tab.coord e.1, e.2.1, e.2.2)) =
        (st.cfg.acts k.2.2).filterMap (fun a => (f st.cfg k a).map (fun r => (some r.1, r.2, a))) := by
  unfold succsBy
  rw [if_neg hg, getCoord_ok.mpr hk]
  have hr := (inRange_iff.mp (inRange_of_coord i.x hk)).2
  unfold actsAt
  dsimp only
  rw [if_pos hr]
  exact actLoop_ok _ st i.x (fun a _ r e => hf k a r e)

theorem succsBy_goal (f : XCfg → XKey → XAct → Option (XKey × Nat)) (st : XEnv) : st.succsBy f st.goalId = .ok (st, []) := by
  unfold succsBy; rw [if_pos rfl]

/-- GetPreds and GetLazyPreds -/
theorem predsBy_ok {s : Setup} (ok : SetupOk s) {f : XCfg → XKey → XAct → Option (XKey × Nat)} {st : XEnv} (i : SInv s st)
    (hf : ∀ k (a : XAct), 0 ≤ a.startTheta ∧ a.startTheta < st.cfg.T → ∀ r, f st.cfg k a = some r → st.cfg.inRange r.1 = true)
    {id : Nat} {k : XKey} (hk : st.tab.coord id = some k) :
    ∃ st' l, st.predsBy f id = .ok (st', l) ∧ XInv st' ∧ Ext st st' ∧
      l.map (fun e => (st'.tab.coord e.1, e.2.1, e.2.2)) =
        (st.cfg.preds k.2.2).filterMap (fun a => (f st.cfg k a).map (fun r => (some r.1, r.2, a))) := by
  unfold predsBy
  rw [getCoord_ok.mpr hk]
  have hr := (inRange_iff.mp (inRange_of_coord i.x hk)).2
  unfold predsAt
  dsimp only
  rw [if_pos hr]
  refine actLoop_ok _ st i.x (fun a ha r e => hf k a ?_ r e)
  obtain ⟨u, u0, uT, -, hs, -⟩ := (mem_preds i.stc ok).mp ha
  rw [hs]; exact ⟨u0, uT⟩

theorem succsBy_ext {s : Setup} {f : XCfg → XKey → XAct → Option (XKey × Nat)} {st st' : XEnv} {l : List (Nat × Nat × XAct)} (i : SInv s st)
    (hf : ∀ k a r, f st.cfg k a = some r → st.cfg.inRange r.1 = true) {id : Nat} (h : st.succsBy f id = .ok (st', l)) :
    SInv s st' ∧ Ext st st' := by
  by_cases hg : id = st.goalId
  · subst hg
    rw [succsBy_goal] at h
    cases h; exact ⟨i, Ext.refl _⟩
  · cases hk : st.tab.coord id with
    | none => unfold succsBy getCoord at h; rw [if_neg hg, hk] at h; cases h
    | some k =>
      obtain ⟨st1, l1, h1, x, e, -⟩ := succsBy_ok i hf hg hk
      rw [h] at h1; cases h1
      exact ⟨i.ext e x, e⟩

theorem predsBy_ext {s : Setup} (ok : SetupOk s) {f : XCfg → XKey → XAct → Option (XKey × Nat)} {st st' : XEnv} {l : List (Nat × Nat × XAct)} (i : SInv s st)
    (hf : ∀ k (a : XAct), 0 ≤ a.startTheta ∧ a.startTheta < st.cfg.T → ∀ r, f st.cfg k a = some r → st.cfg.inRange r.1 = true)
    {id : Nat} (h : st.predsBy f id = .ok (st', l)) : SInv s st' ∧ Ext st st' := by
  cases hk : st.tab.coord id with
  | none => unfold predsBy getCoord at h; rw [hk] at h; cases h
  | some k =>
    obtain ⟨st1, l1, h1, x, e, -⟩ := predsBy_ok ok i hf hk
    rw [h] at h1; cases h1
    exact ⟨i.ext e x, e⟩

theorem pathActions_ext {s : Setup} : ∀ (l : List Nat) {st st' : XEnv} {as : List XAct}, SInv s st → st.pathActions l = .ok (st', as) →
    SInv s st' ∧ Ext st st' := by
  intro l
  induction l with
  | nil => intro st st' as i h; unfold pathActions at h; cases h; exact ⟨i, Ext.refl _⟩
  | cons a l ih =>
    intro st st' as i h
    cases l with
    | nil => unfold pathActions at h; cases h; exact ⟨i, Ext.refl _⟩
    | cons b l =>
      unfold pathActions at h
      split at h
      next => cases h
      next st1 r h1 =>
        split at h
        next => cases h
        next e he =>
          split at h
          next => cases h
          next st2 as2 h2 =>
            cases h
            obtain ⟨i1, e1⟩ := succsBy_ext i (succAct_inRange i.stc) h1
            obtain ⟨i2, e2⟩ := ih i1 h2
            exact ⟨i2, e1.trans e2⟩

/-- the calls keep everything but the costs, start and goal -/
structure Keeps (st st' : XEnv) : Prop where
  lookup : st'.cfg.lookup = st.cfg.lookup
  pre : st.tab.table <+: st'.tab.table

theorem Ext.keeps {st st' : XEnv} (e : Ext st st') : Keeps st st' := ⟨by rw [e.cfg], e.pre⟩
theorem Keeps.trans {a b c : XEnv} (h : Keeps a b) (h' : Keeps b c) : Keeps a c := ⟨h'.lookup.trans h.lookup, h.pre.trans h'.pre⟩
theorem Keeps.refl (a : XEnv) : Keeps a a := ⟨rfl, List.prefix_refl _⟩

theorem slot_congr {c c' : XCfg} (h1 : c'.lookup = c.lookup) (h2 : c'.W = c.W) (h3 : c'.T = c.T) : c'.slot = c.slot := by
  funext k; unfold slot index; rw [h1, h2, h3]

theorem contKey_inRange {s : Setup} {c : XCfg} (h : Static s c) {x y : Int} {th : ℚ} (hw : ¬ c.within x y = false)
    (ht : Utils.contTheta2Disc th s.T < s.T) : c.inRange (x, y, Utils.contTheta2Disc th c.T) = true := by
  rw [inRange_iff, h.T]
  refine ⟨within_iff.mp (by simpa using hw), ?_, ht⟩
  have hT : (0 : Int) < s.T := by exact_mod_cast h.T0
  by_cases hf : th = AngleProps.TURN - AngleProps.TURN / ((s.T : Int) : ℚ) / 2
  · rw [hf, AngleProps.contTheta2Disc_out_of_range hT]; exact hT.le
  · exact (AngleProps.contTheta2Disc_bin hT hf).1

theorem setGoal_ok {s : Setup} {st : XEnv} (i : SInv s st) {x y th : ℚ} (ht : Utils.contTheta2Disc th s.T < s.T) :
    ∃ st' r, st.setGoal x y th = .ok (st', r) ∧ SInv s st' ∧ Keeps st st' ∧ st'.cfg.grid = st.cfg.grid ∧ st'.cfg.start = st.cfg.start ∧
      (r = none → st' = st) ∧ (r = none ↔ st.cfg.within (Utils.contXY2Disc x st.cfg.cs) (Utils.contXY2Disc y st.cfg.cs) = false) ∧
      (∀ j, r = some j → st'.goalId = j ∧
        st'.cfg.goal = (Utils.contXY2Disc x st.cfg.cs, Utils.contXY2Disc y st.cfg.cs, Utils.contTheta2Disc th st.cfg.T)) := by
  unfold setGoal
  dsimp only
  split_ifs with h
  · exact ⟨st, none, rfl, i, Keeps.refl _, rfl, rfl, fun _ => rfl, by simp [h], by simp⟩
  · obtain ⟨st1, id, g1, g2, g3, g4, -⟩ := getState_ok i.x (contKey_inRange i.stc h ht)
    rw [g1]
    have i1 := i.ext g3 g2
    have c1 := i1.stc
    have x1 := i1.x
    refine ⟨_, some id, rfl, ⟨⟨x1.T128, ?_, x1.rng, x1.stamp⟩, ⟨c1.W, c1.H, c1.T, c1.cs, c1.obs, c1.inscr, c1.circ, c1.poly, c1.acts, c1.preds, c1.aff,
      c1.idx, c1.T0⟩, i1.startC, g4⟩, ⟨?_, g3.pre⟩, ?_, ?_, by simp, by simp [h], ?_⟩
    · exact x1.tab
    · dsimp only; rw [g3.cfg]
    · dsimp only; rw [g3.cfg]
    · dsimp only; rw [g3.cfg]
    · intro j hj; cases hj; exact ⟨rfl, rfl⟩

theorem setStart_ok {s : Setup} {st : XEnv} (i : SInv s st) {x y th : ℚ} (ht : Utils.contTheta2Disc th s.T < s.T) :
    ∃ st' r, st.setStart x y th = .ok (st', r) ∧ SInv s st' ∧ Keeps st st' ∧ st'.cfg.grid = st.cfg.grid ∧ st'.cfg.goal = st.cfg.goal ∧
      (r = none → st' = st) ∧ (r = none ↔ st.cfg.within (Utils.contXY2Disc x st.cfg.cs) (Utils.contXY2Disc y st.cfg.cs) = false) ∧
      (∀ j, r = some j → st'.startId = j ∧
        st'.cfg.start = (Utils.contXY2Disc x st.cfg.cs, Utils.contXY2Disc y st.cfg.cs, Utils.contTheta2Disc th st.cfg.T)) := by
  unfold setStart
  dsimp only
  split_ifs with h
  · exact ⟨st, none, rfl, i, Keeps.refl _, rfl, rfl, fun _ => rfl, by simp [h], by simp⟩
  · obtain ⟨st1, id, g1, g2, g3, g4, -⟩ := getState_ok i.x (contKey_inRange i.stc h ht)
    rw [g1]
    have i1 := i.ext g3 g2
    have c1 := i1.stc
    have x1 := i1.x
    refine ⟨_, some id, rfl, ⟨⟨x1.T128, ?_, x1.rng, x1.stamp⟩, ⟨c1.W, c1.H, c1.T, c1.cs, c1.obs, c1.inscr, c1.circ, c1.poly, c1.acts, c1.preds, c1.aff,
      c1.idx, c1.T0⟩, g4, i1.goalC⟩, ⟨?_, g3.pre⟩, ?_, ?_, by simp, by simp [h], ?_⟩
    · exact x1.tab
    · dsimp only; rw [g3.cfg]
    · dsimp only; rw [g3.cfg]
    · dsimp only; rw [g3.cfg]
    · intro j hj; cases hj; exact ⟨rfl, rfl⟩

/-- replacing the costs keeps the invariant -/
theorem SInv.grid {s : Setup} {st : XEnv} (i : SInv s st) (g : Int → Int → Nat) (a b : Bool) :
    SInv s { st with cfg := { st.cfg with grid := g }, needStart := a, needGoal := b } := by
  have c1 := i.stc
  have x1 := i.x
  exact ⟨⟨x1.T128, x1.tab, x1.rng, x1.stamp⟩, ⟨c1.W, c1.H, c1.T, c1.cs, c1.obs, c1.inscr, c1.circ, c1.poly, c1.acts, c1.preds, c1.aff,
      c1.idx, c1.T0⟩, i.startC, i.goalC⟩

/-! ## GetPredsofChangedEdges -/

/-- what the loops do -/
structure Marked (st st' : XEnv) (hit : Nat → Prop) (l : List Nat) : Prop where
  eq : st' = { st with stamp := st'.stamp }
  mem : ∀ id, id ∈ l ↔ st.stamp id < st.iter ∧ hit id
  new : ∀ id, st'.stamp id = if id ∈ l then st.iter else st.stamp id
  nodup : l.Nodup

/-- the state with coordinates `(k.1 + x, k.2.1 + y, k.2.2)` -/
def At (st : XEnv) (x y : Int) (k : XKey) (id : Nat) : Prop := st.tab.coord id = some (k.1 + x, k.2.1 + y, k.2.2)

theorem find_stamp (st : XEnv) (f : Nat → Nat) (k : XKey) : { st with stamp := f }.find k = st.find k := rfl

theorem XInv.restamp {st : XEnv} (i : XInv st) {f : Nat → Nat} (h : ∀ j, f j ≤ st.iter) : XInv { st with stamp := f } :=
  ⟨i.T128, i.tab, i.rng, h⟩

theorem Marked.stamp_le {st st' : XEnv} {hit : Nat → Prop} {l : List Nat} (m : Marked st st' hit l) (h : ∀ j, st.stamp j ≤ st.iter) :
    ∀ j, st'.stamp j ≤ st.iter := by
  intro j; rw [m.new]; split_ifs
  · exact Nat.le_refl _
  · exact h j

theorem Marked.append {a b c : XEnv} {h1 h2 : Nat → Prop} {l1 l2 : List Nat} (m1 : Marked a b h1 l1) (m2 : Marked b c h2 l2) :
    Marked a c (fun id => h1 id ∨ h2 id) (l1 ++ l2) := by
  have ei : b.iter = a.iter := by rw [m1.eq]
  have key : ∀ id, b.stamp id < b.iter ↔ a.stamp id < a.iter ∧ id ∉ l1 := by
    intro id
    rw [m1.new, ei]
    split_ifs with q
    · simp [q]
    · simp [q]
  refine ⟨?_, ?_, ?_, ?_⟩
  · conv_lhs => rw [m2.eq, m1.eq]
  · intro id
    rw [List.mem_append, m2.mem, key, m1.mem]
    by_cases q : id ∈ l1
    · have := (m1.mem id).mp q
      tauto
    · have : ¬(a.stamp id < a.iter ∧ h1 id) := fun r => q ((m1.mem id).mpr r)
      tauto
  · intro id
    rw [m2.new, m1.new, ei]
    by_cases q1 : id ∈ l1 <;> by_cases q2 : id ∈ l2 <;> simp [q1, q2]
  · rw [List.nodup_append]
    refine ⟨m1.nodup, m2.nodup, ?_⟩
    rintro x hx y hy rfl
    exact ((key x).mp ((m2.mem x).mp hy).1).2 hx

theorem Marked.congr {a b : XEnv} {h1 h2 : Nat → Prop} {l : List Nat} (m : Marked a b h1 l) (h : ∀ id, h1 id ↔ h2 id) : Marked a b h2 l :=
  ⟨m.eq, fun id => by rw [m.mem, h], m.new, m.nodup⟩

theorem Marked.nil (a : XEnv) : Marked a a (fun _ => False) [] := ⟨rfl, by simp, by simp, List.nodup_nil⟩

theorem changedAt_ok (x y : Int) : ∀ (ks : List XKey) (st : XEnv), XInv st →
    Marked st (changedAt x y ks st).1 (fun id => ∃ k ∈ ks, At st x y k id) (changedAt x y ks st).2 := by
  intro ks
  induction ks with
  | nil => intro st i; exact (Marked.nil st).congr (by simp)
  | cons k ks ih =>
    intro st i
    unfold changedAt
    have hat : ∀ id, At st x y k id ↔ ∃ e, st.find (k.1 + x, k.2.1 + y, k.2.2) = some e ∧ e.id = id := by
      intro id
      unfold At
      constructor
      · intro h
        obtain ⟨e, h1, h2, h3⟩ := coord_some i.tab h
        exact ⟨e, (find_iff i).mpr ⟨h1, h2⟩, h3⟩
      · rintro ⟨e, h1, rfl⟩
        obtain ⟨h2, h3⟩ := (find_iff i).mp h1
        rw [coord_of_mem i.tab h2, h3]
    cases hf : st.find (k.1 + x, k.2.1 + y, k.2.2) with
    | none =>
      dsimp only
      refine (ih st i).congr (fun id => ?_)
      have : ¬ At st x y k id := by rw [hat, hf]; simp
      constructor
      · rintro ⟨k', h1, h2⟩; exact ⟨k', by simp [h1], h2⟩
      · rintro ⟨k', h1, h2⟩
        rcases List.mem_cons.mp h1 with q | q
        · rw [q] at h2; exact absurd h2 this
        · exact ⟨k', q, h2⟩
    | some e =>
      dsimp only
      have hit : ∀ id, At st x y k id ↔ e.id = id := by intro id; rw [hat, hf]; simp
      split_ifs with hs
      · dsimp only
        have m1 : Marked st { st with stamp := upd st.stamp e.id st.iter } (fun id => At st x y k id) [e.id] := by
          refine ⟨rfl, ?_, ?_, by simp⟩
          · intro id
            rw [hit]
            constructor
            · intro h; rw [List.mem_singleton] at h; subst h; exact ⟨hs, rfl⟩
            · rintro ⟨-, rfl⟩; simp
          · intro id
            show upd st.stamp e.id st.iter id = _
            by_cases q : id = e.id
            · rw [q, upd_same, if_pos (by simp)]
            · rw [upd_other _ _ q, if_neg (by simp [q])]
        have i2 : XInv { st with stamp := upd st.stamp e.id st.iter } := i.restamp (m1.stamp_le i.stamp)
        refine (m1.append (ih _ i2)).congr (fun id => ?_)
        constructor
        · rintro (h | ⟨k', h1, h2⟩)
          · exact ⟨k, by simp, h⟩
          · exact ⟨k', by simp [h1], h2⟩
        · rintro ⟨k', h1, h2⟩
          rcases List.mem_cons.mp h1 with q | q
          · rw [q] at h2; exact .inl h2
          · exact .inr ⟨k', q, h2⟩
      · -- already marked
        have m := ih st i
        refine ⟨m.eq, ?_, m.new, m.nodup⟩
        intro id
        rw [m.mem]
        constructor
        · rintro ⟨h0, k', h1, h2⟩; exact ⟨h0, k', by simp [h1], h2⟩
        · rintro ⟨h0, k', h1, h2⟩
          rcases List.mem_cons.mp h1 with q | q
          · rw [q, hit] at h2; rw [h2] at hs; exact absurd h0 hs
          · exact ⟨h0, k', q, h2⟩

theorem changedLoop_ok : ∀ (cs : List (Int × Int)) (st : XEnv), XInv st →
    Marked st (changedLoop cs st).1 (fun id => ∃ q ∈ cs, ∃ k ∈ st.cfg.aff, At st q.1 q.2 k id) (changedLoop cs st).2 := by
  intro cs
  induction cs with
  | nil => intro st i; exact (Marked.nil st).congr (by simp)
  | cons q cs ih =>
    intro st i
    unfold changedLoop
    dsimp only
    have m1 := changedAt_ok q.1 q.2 st.cfg.aff st i
    have e := m1.eq
    have i2 : XInv (changedAt q.1 q.2 st.cfg.aff st).1 := by rw [e]; exact i.restamp (m1.stamp_le i.stamp)
    refine (m1.append (ih _ i2)).congr (fun id => ?_)
    have hA : ∀ x y k, At (changedAt q.1 q.2 st.cfg.aff st).1 x y k id ↔ At st x y k id := by intro x y k; rw [e]; rfl
    have hc : (changedAt q.1 q.2 st.cfg.aff st).1.cfg = st.cfg := by rw [e]
    simp only [hA, hc]
    simp

/-- GetPredsofChangedEdges reports exactly the existing states at the offsets of the table, each once -/
theorem changedPreds_ok {st : XEnv} (i : XInv st) (cs : List (Int × Int)) :
    XInv (st.changedPreds cs).1 ∧ (st.changedPreds cs).1 = { st with iter := st.iter + 1, stamp := (st.changedPreds cs).1.stamp } ∧
    (st.changedPreds cs).2.Nodup ∧
    ∀ id, id ∈ (st.changedPreds cs).2 ↔ ∃ q ∈ cs, ∃ k ∈ st.cfg.aff, st.tab.coord id = some (k.1 + q.1, k.2.1 + q.2, k.2.2) := by
  have i' : XInv { st with iter := st.iter + 1 } := ⟨i.T128, i.tab, i.rng, fun j => Nat.le_succ_of_le (i.stamp j)⟩
  have m := changedLoop_ok cs _ i'
  have e := m.eq
  unfold changedPreds
  refine ⟨?_, ?_, m.nodup, ?_⟩
  · rw [e]; exact i'.restamp (m.stamp_le i'.stamp)
  · conv_lhs => rw [e]
  · intro id
    rw [m.mem]
    constructor
    · exact fun h => h.2
    · intro h; exact ⟨Nat.lt_succ_of_le (i.stamp id), h⟩

/-! ## histories -/

theorem step_inv {s : Setup} (ok : SetupOk s) {st st' : XEnv} (i : SInv s st) {op : Op} (hop : CallOk s op) (h : st.step op = some st') :
    SInv s st' ∧ Keeps st st' := by
  cases op with
  | getState k =>
    obtain ⟨st1, id, g1, g2, g3, g4, -⟩ := getState_ok i.x (i.stc.inRange.mpr hop)
    simp only [step, g1] at h
    cases h; exact ⟨i.ext g3 g2, g3.keeps⟩
  | getSuccs id =>
    simp only [step] at h
    split at h
    next r hr =>
      cases h
      obtain ⟨a, b⟩ := succsBy_ext i (succAct_inRange i.stc) hr
      exact ⟨a, b.keeps⟩
    next => cases h
  | getPreds id =>
    simp only [step] at h
    split at h
    next r hr =>
      cases h
      obtain ⟨a, b⟩ := predsBy_ext ok i predAct_inRange hr
      exact ⟨a, b.keeps⟩
    next => cases h
  | getLazySuccs id =>
    simp only [step] at h
    split at h
    next r hr =>
      cases h
      obtain ⟨a, b⟩ := succsBy_ext i (lazySuccAct_inRange i.stc) hr
      exact ⟨a, b.keeps⟩
    next => cases h
  | getLazyPreds id =>
    simp only [step] at h
    split at h
    next r hr =>
      cases h
      obtain ⟨a, b⟩ := predsBy_ext ok i lazyPredAct_inRange hr
      exact ⟨a, b.keeps⟩
    next => cases h
  | getTrueCost a b =>
    simp only [step] at h
    split at h
    · cases h; exact ⟨i, Keeps.refl _⟩
    · cases h; exact ⟨i, Keeps.refl _⟩
    · cases h
  | pathActions l =>
    simp only [step] at h
    split at h
    next r hr =>
      cases h
      obtain ⟨a, b⟩ := pathActions_ext l i hr
      exact ⟨a, b.keeps⟩
    next => cases h
  | setStart x y th =>
    obtain ⟨st1, r, g1, g2, g3, -⟩ := setStart_ok i (x := x) (y := y) hop
    simp only [step, g1] at h
    cases h; exact ⟨g2, g3⟩
  | setGoal x y th =>
    obtain ⟨st1, r, g1, g2, g3, -⟩ := setGoal_ok i (x := x) (y := y) hop
    simp only [step, g1] at h
    cases h; exact ⟨g2, g3⟩
  | updateCost x y v =>
    simp only [step, updateCost] at h
    split at h
    next r hr =>
      cases h
      split_ifs at hr
      cases hr
      exact ⟨i.grid _ _ _, ⟨rfl, List.prefix_refl _⟩⟩
    next => cases h
  | setMap map =>
    simp only [step] at h
    cases h
    exact ⟨i.grid _ _ _, ⟨rfl, List.prefix_refl _⟩⟩
  | changedPreds cs =>
    simp only [step] at h
    cases h
    obtain ⟨h1, h2, -⟩ := changedPreds_ok i.x cs
    refine ⟨⟨h1, ?_, ?_, ?_⟩, ?_, ?_⟩
    · rw [h2]; exact i.stc
    · rw [h2]; exact i.startC
    · rw [h2]; exact i.goalC
    · rw [h2]
    · rw [h2]; exact List.prefix_refl _

theorem run_inv {s : Setup} (ok : SetupOk s) : ∀ (ops : List Op) {st st' : XEnv}, SInv s st → (∀ op ∈ ops, CallOk s op) →
    st.run ops = some st' → SInv s st' ∧ Keeps st st' := by
  intro ops
  induction ops with
  | nil => intro st st' i _ h; simp only [run] at h; cases h; exact ⟨i, Keeps.refl _⟩
  | cons op ops ih =>
    intro st st' i hc h
    simp only [run] at h
    split at h
    next => cases h
    next st1 h1 =>
      obtain ⟨a, b⟩ := step_inv ok i (hc op (by simp)) h1
      obtain ⟨c, d⟩ := ih a (fun o ho => hc o (by simp [ho])) h
      exact ⟨c, b.trans d⟩

end Sbpl.XEnv
