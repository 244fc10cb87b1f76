import Verif.Proofs.MLevAct
/-! # `EnvironmentNAVXYTHETAMLEVLAT`: all calls keep the invariant -/

namespace Sbpl.MEnv
open XEnv XCfg XSpec

/-- the invariant -/
structure MInv (s : Setup) (st : MEnv) : Prop where
  env : SInv s st.env
  pts : ∀ t i m, (s.prims.filter (fun m => decide (m.startTheta = t)))[i]? = some m → st.pts t i = m.pts
  lst : ∀ l ∈ st.levels, LStatic s l

/-- what the specification tracks -/
def quad (st : MEnv) : ((Int → Int → Nat) × XKey × XKey) × Option (List Lvl) := (st.env.triple, st.lev.map (fun ls => ls.map lvl))

theorem valid_base {c : XCfg} {ls : List MLev} {x y : Int} (h : ¬ valid c ls x y = false) : ¬ c.valid x y = false := by
  rw [Bool.not_eq_false] at h
  rw [(valid_iff.mp h).1]; simp

theorem succAct_inRange {s : Setup} {c : XCfg} (h : Static s c) (ls : List MLev) (k : XKey) (a : XAct) (r : XKey × Nat) (e : succAct ls c k a = some r) :
    c.inRange r.1 = true := by
  unfold succAct at e
  split_ifs at e with h1
  cases e; exact succ_inRange h (valid_base h1)

theorem lazySuccAct_inRange {s : Setup} {c : XCfg} (h : Static s c) (ls : List MLev) (k : XKey) (a : XAct) (r : XKey × Nat)
    (e : lazySuccAct ls c k a = some r) : c.inRange r.1 = true := by
  unfold lazySuccAct at e
  split_ifs at e with h1
  cases e; exact succ_inRange h (valid_base h1)

theorem predAct_inRange {c : XCfg} (ls : List MLev) (k : XKey) (a : XAct) (ha : 0 ≤ a.startTheta ∧ a.startTheta < c.T) (r : XKey × Nat)
    (e : predAct ls c k a = some r) : c.inRange r.1 = true := by
  unfold predAct at e
  split_ifs at e with h1
  cases e; exact pred_inRange (valid_base h1) ha

theorem lazyPredAct_inRange {c : XCfg} (ls : List MLev) (k : XKey) (a : XAct) (ha : 0 ≤ a.startTheta ∧ a.startTheta < c.T) (r : XKey × Nat)
    (e : lazyPredAct ls c k a = some r) : c.inRange r.1 = true := by
  unfold lazyPredAct at e
  split_ifs at e with h1
  cases e; exact pred_inRange (valid_base h1) ha

theorem back_ok {α : Type} {st st' : MEnv} {x : α} {r : Except XErr (XEnv × α)} (h : st.back r = .ok (st', x)) :
    ∃ e, r = .ok (e, x) ∧ st' = { st with env := e } := by
  cases r with
  | error e => cases h
  | ok r => cases h; exact ⟨_, rfl, rfl⟩

/-- a call that only created states -/
structure MExt (st st' : MEnv) : Prop where
  env : Ext st.env st'.env
  pts : st'.pts = st.pts
  lev : st'.lev = st.lev

theorem MExt.refl (st : MEnv) : MExt st st := ⟨Ext.refl _, rfl, rfl⟩
theorem MExt.trans {a b c : MEnv} (h : MExt a b) (h' : MExt b c) : MExt a c := ⟨h.env.trans h'.env, h'.pts.trans h.pts, h'.lev.trans h.lev⟩
theorem MExt.quad {st st' : MEnv} (h : MExt st st') : st'.quad = st.quad := by
  unfold MEnv.quad; rw [h.env.triple, h.lev]

theorem MInv.setEnv {s : Setup} {st : MEnv} (i : MInv s st) {e : XEnv} (h : SInv s e) : MInv s { st with env := e } := ⟨h, i.pts, i.lst⟩

theorem getSuccs_ext {s : Setup} {st st' : MEnv} (i : MInv s st) {id : Nat} {l : List (Nat × Nat × XAct)} (h : st.getSuccs id = .ok (st', l)) :
    MInv s st' ∧ MExt st st' := by
  obtain ⟨e, h1, rfl⟩ := back_ok h
  obtain ⟨a, b⟩ := succsBy_ext i.env (succAct_inRange i.env.stc _) h1
  exact ⟨i.setEnv a, b, rfl, rfl⟩

theorem getLazySuccs_ext {s : Setup} {st st' : MEnv} (i : MInv s st) {id : Nat} {l : List (Nat × Nat × XAct)} (h : st.getLazySuccs id = .ok (st', l)) :
    MInv s st' ∧ MExt st st' := by
  obtain ⟨e, h1, rfl⟩ := back_ok h
  obtain ⟨a, b⟩ := succsBy_ext i.env (lazySuccAct_inRange i.env.stc _) h1
  exact ⟨i.setEnv a, b, rfl, rfl⟩

theorem getPreds_ext {s : Setup} (ok : SetupOk s) {st st' : MEnv} (i : MInv s st) {id : Nat} {l : List (Nat × Nat × XAct)} (h : st.getPreds id = .ok (st', l)) :
    MInv s st' ∧ MExt st st' := by
  obtain ⟨e, h1, rfl⟩ := back_ok h
  obtain ⟨a, b⟩ := predsBy_ext ok i.env (predAct_inRange _) h1
  exact ⟨i.setEnv a, b, rfl, rfl⟩

theorem getLazyPreds_ext {s : Setup} (ok : SetupOk s) {st st' : MEnv} (i : MInv s st) {id : Nat} {l : List (Nat × Nat × XAct)}
    (h : st.getLazyPreds id = .ok (st', l)) : MInv s st' ∧ MExt st st' := by
  obtain ⟨e, h1, rfl⟩ := back_ok h
  obtain ⟨a, b⟩ := predsBy_ext ok i.env (lazyPredAct_inRange _) h1
  exact ⟨i.setEnv a, b, rfl, rfl⟩

theorem pathActions_ext {s : Setup} : ∀ (l : List Nat) {st st' : MEnv} {as : List XAct}, MInv s st → st.pathActions l = .ok (st', as) →
    MInv s st' ∧ MExt st st' := by
  intro l
  induction l with
  | nil => intro st st' as i h; unfold pathActions at h; cases h; exact ⟨i, MExt.refl _⟩
  | cons a l ih =>
    intro st st' as i h
    cases l with
    | nil => unfold pathActions at h; cases h; exact ⟨i, MExt.refl _⟩
    | cons b l =>
      unfold pathActions at h
      split at h
      next => cases h
      next st1 r h1 =>
        split at h
        next => cases h
        next e he =>
          split at h
          next => cases h
          next st2 as2 h2 =>
            cases h
            obtain ⟨i1, x1⟩ := getSuccs_ext i h1
            obtain ⟨i2, x2⟩ := ih i1 h2
            exact ⟨i2, x1.trans x2⟩

theorem map_modify {α β : Type} (f : α → β) (g : α → α) (g' : β → β) (h : ∀ a, f (g a) = g' (f a)) : ∀ (l : List α) (i : Nat),
    (l.modify i g).map f = (l.map f).modify i g' := by
  intro l
  induction l with
  | nil => intro i; simp
  | cons a l ih =>
    intro i
    cases i with
    | zero => simp [h]
    | succ i => simp [ih]

theorem mem_modify {α : Type} (g : α → α) (P : α → Prop) (hg : ∀ a, P a → P (g a)) : ∀ (l : List α) (i : Nat), (∀ a ∈ l, P a) → ∀ a ∈ l.modify i g, P a := by
  intro l
  induction l with
  | nil => intro i _ a ha; simp at ha
  | cons x l ih =>
    intro i hl a ha
    cases i with
    | zero =>
      simp only [List.modify_zero_cons, List.mem_cons] at ha
      rcases ha with rfl | ha
      · exact hg _ (hl x (by simp))
      · exact hl a (by simp [ha])
    | succ i =>
      simp only [List.modify_succ_cons, List.mem_cons] at ha
      rcases ha with rfl | ha
      · exact hl a (by simp)
      · exact ih i (fun b hb => hl b (by simp [hb])) a ha

/-- the effect of a call on what the specification tracks -/
def quadStep (s : Setup) (x : ((Int → Int → Nat) × XKey × XKey) × Option (List Lvl)) : MOp → ((Int → Int → Nat) × XKey × XKey) × Option (List Lvl)
  | .base op => ((costStep s x.1.1 op, startStep s x.1.2.1 op, goalStep s x.1.2.2 op), x.2)
  | op => (x.1, levStep s x.2 op)

theorem modify_inv {s : Setup} {st : MEnv} (i : MInv s st) {ls : List MLev} (hl : st.lev = some ls) (j : Nat) (g : MLev → Int → Int → Nat) :
    MInv s { st with lev := some (ls.modify j (fun l => setGrid l (g l))) } := by
  refine ⟨i.env, i.pts, ?_⟩
  refine mem_modify (fun l => setGrid l (g l)) (LStatic s) (fun l h => h) ls j ?_
  intro l h
  refine i.lst l ?_
  unfold levels; rw [hl]; exact h

theorem step_inv {s : Setup} (ok : SetupOk s) {st st' : MEnv} (i : MInv s st) {op : MOp} (hop : MCallOk s op) (h : st.step op = some st') :
    MInv s st' ∧ st'.quad = quadStep s st.quad op := by
  have gen : ∀ {o : Op} {e : XEnv}, CallOk s o → st.env.step o = some e → st' = { st with env := e } →
      MInv s st' ∧ st'.quad = quadStep s st.quad (.base o) := by
    intro o e ho he hs
    subst hs
    refine ⟨i.setEnv (XEnv.step_inv ok i.env ho he).1, ?_⟩
    unfold quad quadStep
    rw [step_triple ok i.env ho he]; rfl
  have same : MExt st st' → ∀ o : Op, costStep s st.env.cfg.grid o = st.env.cfg.grid → startStep s st.env.cfg.start o = st.env.cfg.start →
      goalStep s st.env.cfg.goal o = st.env.cfg.goal → st'.quad = quadStep s st.quad (.base o) := by
    intro e o h1 h2 h3
    rw [e.quad]
    unfold quad quadStep triple
    dsimp only
    rw [h1, h2, h3]
  cases op with
  | base o =>
    have hop' : CallOk s o := hop
    cases o with
    | getState k =>
      simp only [step] at h
      split at h
      next e he => cases h; exact gen hop' he rfl
      next => cases h
    | setStart x y th =>
      simp only [step] at h
      split at h
      next e he => cases h; exact gen hop' he rfl
      next => cases h
    | setGoal x y th =>
      simp only [step] at h
      split at h
      next e he => cases h; exact gen hop' he rfl
      next => cases h
    | updateCost x y v =>
      simp only [step] at h
      split at h
      next e he => cases h; exact gen hop' he rfl
      next => cases h
    | setMap map =>
      simp only [step] at h
      exact gen (o := .setMap map) (e := st.env.setMap map) hop' rfl (by
        split at h
        next e he => cases h; simp only [XEnv.step] at he; cases he; rfl
        next => cases h)
    | getSuccs id =>
      simp only [step] at h
      split at h
      next r hr => cases h; obtain ⟨a, b⟩ := getSuccs_ext i hr; exact ⟨a, same b _ rfl rfl rfl⟩
      next => cases h
    | getPreds id =>
      simp only [step] at h
      split at h
      next r hr => cases h; obtain ⟨a, b⟩ := getPreds_ext ok i hr; exact ⟨a, same b _ rfl rfl rfl⟩
      next => cases h
    | getLazySuccs id =>
      simp only [step] at h
      split at h
      next r hr => cases h; obtain ⟨a, b⟩ := getLazySuccs_ext i hr; exact ⟨a, same b _ rfl rfl rfl⟩
      next => cases h
    | getLazyPreds id =>
      simp only [step] at h
      split at h
      next r hr => cases h; obtain ⟨a, b⟩ := getLazyPreds_ext ok i hr; exact ⟨a, same b _ rfl rfl rfl⟩
      next => cases h
    | getTrueCost a b =>
      simp only [step] at h
      split at h
      next => cases h; exact ⟨i, same (MExt.refl _) _ rfl rfl rfl⟩
      next => cases h; exact ⟨i, same (MExt.refl _) _ rfl rfl rfl⟩
      next => cases h
    | pathActions l =>
      simp only [step] at h
      split at h
      next r hr => cases h; obtain ⟨a, b⟩ := pathActions_ext l i hr; exact ⟨a, same b _ rfl rfl rfl⟩
      next => cases h
    | changedPreds cs =>
      simp only [step] at h
      cases h
      exact ⟨i, same (MExt.refl _) _ rfl rfl rfl⟩
  | initLevels ins =>
    simp only [step] at h
    cases h
    refine ⟨⟨i.env, i.pts, ?_⟩, ?_⟩
    · intro l hl
      have hl' : l ∈ ins.map (fun l => ({ inp := l, grid := fun _ _ => 0, inter := fun t i => motionCells l.foot (st.pts t i) } : MLev)) := hl
      obtain ⟨x, -, rfl⟩ := List.mem_map.mp hl'
      intro t j m hm
      show motionCells x.foot (st.pts t j) = _
      rw [i.pts t j m hm]
    · unfold quad quadStep initLevels levStep
      dsimp only
      rw [Option.map_some, List.map_map]
      rfl
  | setMapLev map j =>
    simp only [step] at h
    unfold setMapLev at h
    cases hl : st.lev with
    | none =>
      rw [hl] at h
      cases h
      refine ⟨i, ?_⟩
      unfold quad quadStep levStep
      rw [hl]; rfl
    | some ls =>
      rw [hl] at h
      dsimp only at h
      split_ifs at h with hj
      cases h
      refine ⟨modify_inv i hl j _, ?_⟩
      unfold quad quadStep levStep
      rw [hl]
      dsimp only [Option.map_some]
      rw [map_modify lvl _ (fun e => (e.1, fun x y => map (x + y * s.W))) (fun a => by rw [i.env.stc.W]; rfl)]
  | setMapLev2 map j =>
    simp only [step] at h
    unfold setMapLev2 at h
    cases hl : st.lev with
    | none =>
      rw [hl] at h
      cases h
      refine ⟨i, ?_⟩
      unfold quad quadStep levStep
      rw [hl]; rfl
    | some ls =>
      rw [hl] at h
      dsimp only at h
      split_ifs at h with hj
      cases h
      refine ⟨modify_inv i hl j _, ?_⟩
      unfold quad quadStep levStep
      rw [hl]
      dsimp only [Option.map_some]
      rw [map_modify lvl _ (fun e => (e.1, map)) (fun a => rfl)]
  | updateLev x y v j =>
    simp only [step] at h
    unfold updateLev at h
    cases hl : st.lev with
    | none => rw [hl] at h; cases h
    | some ls =>
      rw [hl] at h
      dsimp only at h
      split_ifs at h with hj
      cases h
      refine ⟨modify_inv i hl j _, ?_⟩
      unfold quad quadStep levStep
      rw [hl]
      dsimp only [Option.map_some]
      rw [map_modify lvl _ (fun e => (e.1, fun a b => if a = x ∧ b = y then v else e.2 a b)) (fun a => rfl)]

theorem run_inv {s : Setup} (ok : SetupOk s) : ∀ (ops : List MOp) {st st' : MEnv}, MInv s st → (∀ op ∈ ops, MCallOk s op) → st.run ops = some st' →
    MInv s st' ∧ st'.quad = ops.foldl (quadStep s) st.quad := by
  intro ops
  induction ops with
  | nil => intro st st' i _ h; simp only [run] at h; cases h; exact ⟨i, rfl⟩
  | cons op ops ih =>
    intro st st' i hc h
    simp only [run] at h
    split at h
    next => cases h
    next st1 h1 =>
      obtain ⟨a, b⟩ := step_inv ok i (hc op (by simp)) h1
      obtain ⟨a', b'⟩ := ih a (fun o ho => hc o (by simp [ho])) h
      exact ⟨a', by rw [b', b]; rfl⟩

theorem quad_fold (s : Setup) : ∀ (ops : List MOp) (g : Int → Int → Nat) (a b : XKey) (ls : Option (List Lvl)),
    ops.foldl (quadStep s) ((g, a, b), ls) =
      (((baseCalls ops).foldl (costStep s) g, (baseCalls ops).foldl (startStep s) a, (baseCalls ops).foldl (goalStep s) b), ops.foldl (levStep s) ls) := by
  intro ops
  induction ops with
  | nil => intros; rfl
  | cons op ops ih =>
    intro g a b ls
    cases op with
    | base o => exact ih _ _ _ _
    | initLevels _ => exact ih _ _ _ _
    | setMapLev _ _ => exact ih _ _ _ _
    | setMapLev2 _ _ => exact ih _ _ _ _
    | updateLev _ _ _ _ => exact ih _ _ _ _

theorem init_inv {s : Setup} (ok : SetupOk s) {st : MEnv} (h : MEnv.init s = .ok st) :
    MInv s st ∧ st.quad = ((fun x y => s.map (x + y * s.W), s.start, s.goal), none) := by
  unfold MEnv.init at h
  split at h
  next => cases h
  next e he =>
    cases h
    obtain ⟨i, e1, e2, e3⟩ := init_ok ok he
    refine ⟨⟨i, ?_, ?_⟩, ?_⟩
    · intro t j m hm
      dsimp only
      rw [hm]
    · intro l hl
      unfold levels at hl
      simp at hl
    · unfold quad triple
      dsimp only
      rw [e1, e2, e3]; rfl

/-- what is known after a history -/
theorem mhist_inv {s : Setup} {ops : List MOp} {st : MEnv} (h : MHist s ops st) :
    MInv s st ∧ st.env.cfg.grid = costs s (baseCalls ops) ∧ st.env.cfg.start = startOf s (baseCalls ops) ∧ st.env.cfg.goal = goalOf s (baseCalls ops) ∧
      st.lev.map (fun ls => ls.map lvl) = levOf s ops ∧ st.levels.map lvl = levelsOf s ops := by
  obtain ⟨ok, hc, st0, h0, h1⟩ := h
  obtain ⟨i0, q0⟩ := init_inv ok h0
  obtain ⟨i, q⟩ := run_inv ok ops i0 hc h1
  rw [q0, quad_fold] at q
  unfold quad triple at q
  simp only [Prod.mk.injEq] at q
  obtain ⟨⟨q1, q2, q3⟩, q4⟩ := q
  refine ⟨i, q1, q2, q3, q4, ?_⟩
  unfold levels levelsOf levOf
  rw [← q4]
  cases st.lev <;> rfl

end Sbpl.MEnv
