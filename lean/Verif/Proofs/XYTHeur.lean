import Mathlib.Tactic.Linarith
import Mathlib.Tactic.Ring
import Mathlib.Data.Rat.Floor
import Verif.Proofs.XYTTrack
import Verif.Spec.XYTHeur
import Verif.Props.GridBucket
/-! # Heuristics of the (x, y, theta) lattice: when the 2D searches are up to date -/

namespace Sbpl.XEnv
open StateTable XCfg XSpec UtilsSpec

/-- a flag stays down only if nothing the searches depend on has changed -/
theorem step_flags {s : Setup} (ok : SetupOk s) {st st' : XEnv} (i : SInv s st) {op : Op} (hop : CallOk s op) (h : st.step op = some st') :
    (st'.needGoal = false → st.needGoal = false ∧ st'.triple = st.triple) ∧
    (st'.needStart = false → st.needStart = false ∧ st'.triple = st.triple) ∧
    (¬ Changes op → st'.needGoal = st.needGoal ∧ st'.needStart = st.needStart) := by
  have ext : ∀ {a : XEnv}, Ext st a → (a.needGoal = false → st.needGoal = false ∧ a.triple = st.triple) ∧
      (a.needStart = false → st.needStart = false ∧ a.triple = st.triple) ∧
      (¬ Changes op → a.needGoal = st.needGoal ∧ a.needStart = st.needStart) := fun e =>
    ⟨fun h => ⟨e.needGoal ▸ h, e.triple⟩, fun h => ⟨e.needStart ▸ h, e.triple⟩, fun _ => ⟨e.needGoal, e.needStart⟩⟩
  cases op with
  | getState k =>
    obtain ⟨st1, id, g1, g2, g3, g4, -⟩ := getState_ok i.x (i.stc.inRange.mpr hop)
    simp only [step, g1] at h
    cases h; exact ext g3
  | getSuccs id =>
    simp only [step] at h
    split at h
    next r hr => cases h; exact ext (succsBy_ext i (succAct_inRange i.stc) hr).2
    next => cases h
  | getPreds id =>
    simp only [step] at h
    split at h
    next r hr => cases h; exact ext (predsBy_ext ok i predAct_inRange hr).2
    next => cases h
  | getLazySuccs id =>
    simp only [step] at h
    split at h
    next r hr => cases h; exact ext (succsBy_ext i (lazySuccAct_inRange i.stc) hr).2
    next => cases h
  | getLazyPreds id =>
    simp only [step] at h
    split at h
    next r hr => cases h; exact ext (predsBy_ext ok i lazyPredAct_inRange hr).2
    next => cases h
  | getTrueCost a b =>
    simp only [step] at h
    split at h
    · cases h; exact ext (Ext.refl _)
    · cases h; exact ext (Ext.refl _)
    · cases h
  | pathActions l =>
    simp only [step] at h
    split at h
    next r hr => cases h; exact ext (pathActions_ext l i hr).2
    next => cases h
  | setStart x y th =>
    simp only [step, setStart] at h
    by_cases hw : st.cfg.within (Utils.contXY2Disc x st.cfg.cs) (Utils.contXY2Disc y st.cfg.cs) = false
    · rw [if_pos hw] at h
      cases h; exact ⟨fun h => ⟨h, rfl⟩, fun h => ⟨h, rfl⟩, fun _ => ⟨rfl, rfl⟩⟩
    · rw [if_neg hw] at h
      obtain ⟨st1, id, g1, g2, g3, g4, -⟩ := getState_ok i.x (contKey_inRange i.stc hw hop)
      rw [g1] at h
      cases h
      have key : st1.startId = id → ((Utils.contXY2Disc x st.cfg.cs, Utils.contXY2Disc y st.cfg.cs, Utils.contTheta2Disc th st.cfg.T) : XKey) =
          st.cfg.start := by
        intro e
        have := coord_prefix g3.pre i.startC
        rw [← g3.startId, e, g4] at this
        exact Option.some.inj this
      refine ⟨?_, ?_, fun h => absurd trivial h⟩
      · intro hf
        simp only [Bool.or_eq_false_iff, decide_eq_false_iff_not, not_not] at hf
        refine ⟨g3.needGoal ▸ hf.1, ?_⟩
        unfold triple; dsimp only; rw [key hf.2, g3.cfg]
      · intro hf
        simp only [Bool.or_eq_false_iff, decide_eq_false_iff_not, not_not] at hf
        refine ⟨g3.needStart ▸ hf.1, ?_⟩
        unfold triple; dsimp only; rw [key hf.2, g3.cfg]
  | setGoal x y th =>
    simp only [step, setGoal] at h
    by_cases hw : st.cfg.within (Utils.contXY2Disc x st.cfg.cs) (Utils.contXY2Disc y st.cfg.cs) = false
    · rw [if_pos hw] at h
      cases h; exact ⟨fun h => ⟨h, rfl⟩, fun h => ⟨h, rfl⟩, fun _ => ⟨rfl, rfl⟩⟩
    · rw [if_neg hw] at h
      obtain ⟨st1, id, g1, g2, g3, g4, -⟩ := getState_ok i.x (contKey_inRange i.stc hw hop)
      rw [g1] at h
      cases h
      have key : st1.goalId = id → ((Utils.contXY2Disc x st.cfg.cs, Utils.contXY2Disc y st.cfg.cs, Utils.contTheta2Disc th st.cfg.T) : XKey) =
          st.cfg.goal := by
        intro e
        have := coord_prefix g3.pre i.goalC
        rw [← g3.goalId, e, g4] at this
        exact Option.some.inj this
      refine ⟨?_, ?_, fun h => absurd trivial h⟩
      · intro hf
        simp only [Bool.or_eq_false_iff, decide_eq_false_iff_not, not_not] at hf
        refine ⟨g3.needGoal ▸ hf.1, ?_⟩
        unfold triple; dsimp only; rw [key hf.2, g3.cfg]
      · intro hf
        simp only [Bool.or_eq_false_iff, decide_eq_false_iff_not, not_not] at hf
        refine ⟨g3.needStart ▸ hf.1, ?_⟩
        unfold triple; dsimp only; rw [key hf.2, g3.cfg]
  | updateCost x y v =>
    simp only [step, updateCost] at h
    split at h
    next r hr =>
      cases h
      split_ifs at hr
      cases hr
      exact ⟨fun h => by simp at h, fun h => by simp at h, fun h => absurd trivial h⟩
    next => cases h
  | setMap map =>
    simp only [step, setMap] at h
    cases h
    exact ⟨fun h => by simp at h, fun h => by simp at h, fun h => absurd trivial h⟩
  | changedPreds cs =>
    simp only [step] at h
    cases h
    obtain ⟨-, h2, -⟩ := changedPreds_ok i.x cs
    rw [h2]
    exact ⟨fun h => ⟨h, rfl⟩, fun h => ⟨h, rfl⟩, fun _ => ⟨rfl, rfl⟩⟩

end Sbpl.XEnv

namespace Sbpl.XHeur
open XSpec XEnv GridBProps GridB

/-- the 2D search of a setup -/
abbrev Searched (s : Setup) (dyn : Nat) : GridB → Prop := ReachedB s.W.toNat s.H.toNat 1 (1000 * s.cs).num.toNat (1000 * s.cs).den dyn

/-- invariant of the environment with its searches -/
structure HInv (s : Setup) (vel : ℚ) (dyn : Nat) (h : XHeur) : Prop where
  env : SInv s h.env
  velE : h.vel = vel
  hs : Searched s dyn h.hs
  hg : Searched s dyn h.hg
  goal : h.env.needGoal = false → ∃ b, Searched s dyn b ∧ b.search h.env.cfg.grid h.env.cfg.inscr (h.env.cfg.goal.1, h.env.cfg.goal.2.1)
    (h.env.cfg.start.1, h.env.cfg.start.2.1) .twoTimes = .ok (true, h.hg)
  start : h.env.needStart = false → ∃ b, Searched s dyn b ∧ b.search h.env.cfg.grid h.env.cfg.inscr (h.env.cfg.start.1, h.env.cfg.start.2.1)
    (h.env.cfg.goal.1, h.env.cfg.goal.2.1) .twoTimes = .ok (true, h.hs)

theorem cell_den {s : Setup} (hc : 1 ≤ 1000 * s.cs) : 1 ≤ (1000 * s.cs).den ∧ (1000 * s.cs).den ≤ (1000 * s.cs).num.toNat * 1 := by
  refine ⟨(1000 * s.cs).pos, ?_⟩
  have h1 : ((1000 * s.cs).den : ℚ) ≤ (1000 * s.cs).num := by
    have := Rat.num_div_den (1000 * s.cs)
    have hd : (0 : ℚ) < (1000 * s.cs).den := by exact_mod_cast (1000 * s.cs).pos
    rw [← this, le_div_iff₀ hd] at hc
    linarith
  have h2 : ((1000 * s.cs).den : Int) ≤ (1000 * s.cs).num := by exact_mod_cast h1
  omega

/-- a search between cells of the map succeeds, or raises -/
theorem search_true {s : Setup} {dyn : Nat} (hc : 1 ≤ 1000 * s.cs) {b b' : GridB} (r : Searched s dyn b) {grid : Int → Int → Nat} {thr : Nat}
    (ht : thr ≤ 254) {p q : Int × Int} (hp : InMap s p) (hq : InMap s q) {v : Bool} (e : b.search grid thr p q .twoTimes = .ok (v, b')) : v = true := by
  obtain ⟨h1, h2⟩ := cell_den hc
  rcases bucket_search_total h1 h2 r grid ht p q .twoTimes with ⟨h, _⟩ | ⟨v', b2, h, hv⟩
  · rw [h] at e; cases e
  · rw [h] at e
    cases e
    rw [hv]
    obtain ⟨a1, a2, a3, a4⟩ := hp
    obtain ⟨c1, c2, c3, c4⟩ := hq
    simp only [Nat.cast_one, Int.tdiv_one, Nat.div_one]
    omega

theorem in_map {s : Setup} {st : XEnv} (i : SInv s st) {id : Nat} {k : XKey} (h : st.tab.coord id = some k) : InMap s (k.1, k.2.1) := by
  have := i.x.rng
  unfold StateTable.coord at h
  cases e : st.tab.table[id]? with
  | none => rw [e] at h; cases h
  | some x =>
    rw [e] at h
    cases h
    exact (i.stc.inRange.mp (this x (List.mem_of_getElem? e))).1

theorem init_inv {s : Setup} {vel : ℚ} {dyn : Nat} (ok : SetupOk s) {h : XHeur} (e : XHeur.init s vel dyn = .ok h) :
    HInv s vel dyn h ∧ h.env.needGoal = true ∧ h.env.needStart = true ∧ ∃ st, XEnv.init s = .ok st ∧ h.env = st := by
  unfold XHeur.init at e
  split at e
  · cases e
  next st hst =>
    cases e
    obtain ⟨i, e1, e2, e3⟩ := init_ok ok hst
    have flags : st.needGoal = true ∧ st.needStart = true := by
      unfold XEnv.init at hst
      split_ifs at hst with c1 c2
      split at hst
      · cases hst
      next acts preds hpre =>
        split at hst
        · cases hst
        next st1 j hs1 =>
          split at hst
          · cases hst
          next st2 k hs2 =>
            cases hst
            have fl : ∀ {a b : XEnv} {k : XKey} {j : Nat}, a.getState k = .ok (b, j) → b.needGoal = a.needGoal ∧ b.needStart = a.needStart := by
              intro a b k j hg
              unfold XEnv.getState at hg
              split at hg
              · cases hg; exact ⟨rfl, rfl⟩
              · unfold XEnv.create at hg
                dsimp only at hg
                split_ifs at hg <;> cases hg <;> exact ⟨rfl, rfl⟩
            have f1 := fl hs1
            have f2 := fl hs2
            dsimp only
            rw [f2.1, f2.2, f1.1, f1.2]
            exact ⟨rfl, rfl⟩
    refine ⟨⟨i, rfl, .new, .new, ?_, ?_⟩, flags.1, flags.2, st, hst, rfl⟩
    · intro hf; rw [show ({ env := st, hs := newSearch s dyn, hg := newSearch s dyn, vel := vel } : XHeur).env = st from rfl, flags.1] at hf; cases hf
    · intro hf; rw [show ({ env := st, hs := newSearch s dyn, hg := newSearch s dyn, vel := vel } : XHeur).env = st from rfl, flags.2] at hf; cases hf

theorem ensure_inv {s : Setup} {vel : ℚ} {dyn : Nat} (hc : 1 ≤ 1000 * s.cs) (ht : s.inscr ≤ 254) {h h' : XHeur} (i : HInv s vel dyn h) {goal : Bool}
    (e : h.ensure goal = .ok h') : HInv s vel dyn h' ∧ h'.env.triple = h.env.triple ∧
      (goal = true → h'.env.needGoal = false) ∧ (goal = false → h'.env.needStart = false) ∧
      (h.env.needGoal = false → h'.env.needGoal = false) ∧ (h.env.needStart = false → h'.env.needStart = false) ∧ h'.env.tab = h.env.tab := by
  have hin : h.env.cfg.inscr ≤ 254 := by rw [i.env.stc.inscr]; exact ht
  have mg := in_map i.env i.env.goalC
  have ms := in_map i.env i.env.startC
  have flip : ∀ a b : Bool, SInv s { h.env with needStart := a, needGoal := b } := by
    intro a b
    have x1 := i.env.x
    have c1 := i.env.stc
    exact ⟨⟨x1.T128, x1.tab, x1.rng, x1.stamp⟩, c1, i.env.startC, i.env.goalC⟩
  unfold XHeur.ensure at e
  split_ifs at e with c1 c2
  · split at e
    · cases e
    next r hr =>
      obtain ⟨v, b'⟩ := r
      cases e
      have := search_true hc i.hs hin ms mg hr
      subst this
      refine ⟨⟨flip _ _, i.velE, .search _ _ _ _ _ hin i.hs hr, i.hg, i.goal, fun _ => ⟨_, i.hs, hr⟩⟩, rfl, ?_, fun _ => rfl, fun h => h,
        fun _ => rfl, rfl⟩
      intro hg; rw [c1.2] at hg; cases hg
  · split at e
    · cases e
    next r hr =>
      obtain ⟨v, b'⟩ := r
      cases e
      have := search_true hc i.hg hin mg ms hr
      subst this
      refine ⟨⟨flip _ _, i.velE, i.hs, .search _ _ _ _ _ hin i.hg hr, fun _ => ⟨_, i.hg, hr⟩, i.start⟩, rfl, fun _ => rfl, ?_, fun _ => rfl,
        fun h => h, rfl⟩
      intro hg; rw [c2.2] at hg; cases hg
  · cases e
    refine ⟨i, rfl, ?_, ?_, fun h => h, fun h => h, rfl⟩
    · intro hg
      by_contra hn
      exact c2 ⟨by simpa using hn, hg⟩
    · intro hg
      by_contra hn
      exact c1 ⟨by simpa using hn, hg⟩

theorem call_inv {s : Setup} {vel : ℚ} {dyn : Nat} (ok : SetupOk s) {h : XHeur} (i : HInv s vel dyn h) {op : Op} (hop : CallOk s op) {st : XEnv}
    (e : h.env.step op = some st) : HInv s vel dyn { h with env := st } := by
  obtain ⟨f1, f2, f3⟩ := step_flags ok i.env hop e
  obtain ⟨si, kp⟩ := step_inv ok i.env hop e
  have hin : st.cfg.inscr = h.env.cfg.inscr := si.stc.inscr.trans i.env.stc.inscr.symm
  refine ⟨si, i.velE, i.hs, i.hg, ?_, ?_⟩
  · intro hf
    obtain ⟨g1, g2⟩ := f1 hf
    obtain ⟨b, hb, hs⟩ := i.goal g1
    unfold triple at g2
    simp only [Prod.mk.injEq] at g2
    obtain ⟨t1, t2, t3⟩ := g2
    refine ⟨b, hb, ?_⟩
    dsimp only
    rw [t1, t2, t3, hin]; exact hs
  · intro hf
    obtain ⟨g1, g2⟩ := f2 hf
    obtain ⟨b, hb, hs⟩ := i.start g1
    unfold triple at g2
    simp only [Prod.mk.injEq] at g2
    obtain ⟨t1, t2, t3⟩ := g2
    refine ⟨b, hb, ?_⟩
    dsimp only
    rw [t1, t2, t3, hin]; exact hs

theorem run_append (a b : List HOp) (h : XHeur) : h.run (a ++ b) = (h.run a).bind (fun h' => h'.run b) := by
  induction a generalizing h with
  | nil => rfl
  | cons op a ih =>
    simp only [List.cons_append, run]
    cases h.step op with
    | none => rfl
    | some h1 => exact ih h1

/-- the whole run -/
theorem run_inv {s : Setup} {vel : ℚ} {dyn : Nat} (ok : SetupOk s) (hc : 1 ≤ 1000 * s.cs) (ht : s.inscr ≤ 254) :
    ∀ (ops : List HOp) {h h' : XHeur}, HInv s vel dyn h → (∀ op, HOp.call op ∈ ops → CallOk s op) → h.run ops = some h' →
      HInv s vel dyn h' ∧
      h'.env.triple = ((calls ops).foldl (costStep s) h.env.cfg.grid, (calls ops).foldl (startStep s) h.env.cfg.start,
        (calls ops).foldl (goalStep s) h.env.cfg.goal) ∧
      ((∀ op, HOp.call op ∈ ops → ¬ Changes op) → (h.env.needGoal = false → h'.env.needGoal = false) ∧
        (h.env.needStart = false → h'.env.needStart = false)) := by
  intro ops
  induction ops with
  | nil =>
    intro h h' i _ e
    simp only [run] at e
    cases e
    exact ⟨i, rfl, fun _ => ⟨fun h => h, fun h => h⟩⟩
  | cons op ops ih =>
    intro h h' i hcl e
    simp only [run] at e
    split at e
    next => cases e
    next h1 e1 =>
      cases op with
      | call op =>
        simp only [step] at e1
        split at e1
        · cases e1
        next st hst =>
          cases e1
          have i1 := call_inv ok i (hcl op (by simp)) hst
          have t := step_triple ok i.env (hcl op (by simp)) hst
          obtain ⟨-, -, f3⟩ := step_flags ok i.env (hcl op (by simp)) hst
          obtain ⟨j1, j2, j3⟩ := ih i1 (fun o ho => hcl o (by simp [ho])) e
          refine ⟨j1, ?_, ?_⟩
          · rw [j2]
            unfold triple at t
            simp only [Prod.mk.injEq] at t
            obtain ⟨t1, t2, t3⟩ := t
            dsimp only
            rw [t1, t2, t3]
            rfl
          · intro hch
            obtain ⟨k1, k2⟩ := j3 (fun o ho => hch o (by simp [ho]))
            obtain ⟨l1, l2⟩ := f3 (hch op (by simp))
            exact ⟨fun hf => k1 (l1.trans hf), fun hf => k2 (l2.trans hf)⟩
      | ensure goal =>
        simp only [step] at e1
        split at e1
        · cases e1
        next h2 he =>
          cases e1
          obtain ⟨i1, t, -, -, f1, f2, -⟩ := ensure_inv hc ht i he
          obtain ⟨j1, j2, j3⟩ := ih i1 (fun o ho => hcl o (by simp [ho])) e
          refine ⟨j1, ?_, ?_⟩
          · rw [j2]
            unfold triple at t
            simp only [Prod.mk.injEq] at t
            obtain ⟨t1, t2, t3⟩ := t
            rw [t1, t2, t3]
            rfl
          · intro hch
            obtain ⟨k1, k2⟩ := j3 (fun o ho => hch o (by simp [ho]))
            exact ⟨fun hf => k1 (f1 hf), fun hf => k2 (f2 hf)⟩

/-- what is known after a history -/
theorem hist {s : Setup} {vel : ℚ} {dyn : Nat} {ops : List HOp} {h : XHeur} (hh : HHist s vel dyn ops h) :
    HInv s vel dyn h ∧ h.env.cfg.grid = costs s (calls ops) ∧ h.env.cfg.start = startOf s (calls ops) ∧ h.env.cfg.goal = goalOf s (calls ops) ∧
    (UpToDate true ops → h.env.needGoal = false) ∧ (UpToDate false ops → h.env.needStart = false) := by
  obtain ⟨h0, e0, e1⟩ := hh.ran
  obtain ⟨i0, -, -, st, hst, he⟩ := init_inv hh.setup_ok e0
  obtain ⟨-, b1, b2, b3⟩ := init_ok hh.setup_ok hst
  obtain ⟨i, t, -⟩ := run_inv hh.setup_ok hh.cell hh.thr ops i0 hh.calls_ok e1
  rw [he] at t
  unfold triple at t
  simp only [Prod.mk.injEq] at t
  obtain ⟨t1, t2, t3⟩ := t
  rw [b3] at t1; rw [b1] at t2; rw [b2] at t3
  refine ⟨i, t1, t2, t3, ?_, ?_⟩
  all_goals
    rintro ⟨a, b, rfl, hb⟩
    rw [run_append] at e1
    cases ea : h0.run a with
    | none => rw [ea] at e1; cases e1
    | some h1 =>
      rw [ea] at e1
      simp only [Option.bind_some, run] at e1
      obtain ⟨i1, -, -⟩ := run_inv hh.setup_ok hh.cell hh.thr a i0 (fun o ho => hh.calls_ok o (by simp [ho])) ea
      split at e1
      · cases e1
      next h2 e2 =>
        simp only [step] at e2
        split at e2
        · cases e2
        next h3 he3 =>
          cases e2
          obtain ⟨i2, -, g1, g2, -⟩ := ensure_inv hh.cell hh.thr i1 he3
          obtain ⟨-, -, k⟩ := run_inv hh.setup_ok hh.cell hh.thr b i2 (fun o ho => hh.calls_ok o (by simp [ho])) e1
          obtain ⟨k1, k2⟩ := k hb
          first
            | exact k1 (g1 rfl)
            | exact k2 (g2 rfl)

end Sbpl.XHeur
