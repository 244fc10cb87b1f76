import Verif.Model.Nav2DAgain
import Verif.Props.Nav2D
import Verif.Props.CfgFile
/-!
# One `EnvironmentNAV2D` object through several calls of InitializeEnv (C197 - C199)
-/

namespace Sbpl.Nav2DProps
open Sbpl Nav2D NavObj Scan GridSpec StateTable

/-! ## A grid map is initialised once, but calls that failed do no harm (C197) -/

theorem table_len (s g : Int × Int) :
    0 < (StateTable.getId Nav2D.hash (StateTable.getId Nav2D.hash StateTable.empty s).1 g).1.table.length := by
  have h1 : (StateTable.getId Nav2D.hash StateTable.empty s).1.table.length = 1 := by
    unfold StateTable.getId
    simp [StateTable.find, StateTable.empty, StateTable.create]
  unfold StateTable.getId at h1 ⊢
  split
  · rw [h1]; exact Nat.one_pos
  · simp [StateTable.create]

theorem general_ok {o : NavObj} {c : NavCfg} (h : (general o c).2 = .ok ()) : (general o c).1.mapped ≠ 0 := by
  unfold general at h ⊢
  split
  · next hm => rw [if_pos hm] at h; cases h
  · exact Nat.ne_of_gt (table_len c.start c.goal)

theorem general_mono {o : NavObj} {c : NavCfg} (h : o.mapped ≠ 0) : (general o c).1.mapped ≠ 0 ∧ (general o c).2 ≠ .ok () := by
  unfold general
  rw [if_pos h]
  exact ⟨Nat.succ_ne_zero _, by simp⟩

theorem general_env {o : NavObj} {c : NavCfg} (h : (general o c).2 = .ok ()) :
    ∃ st, (general o c).1.env = some ⟨st, c.W, c.H⟩ ∧ st.cfg = c ∧ NInv st := by
  unfold general at h ⊢
  split
  · next hm => rw [if_pos hm] at h; cases h
  · have h1 := inv_getId (hash := Nav2D.hash) (inv_empty (κ := Int × Int)) c.start
    exact ⟨_, rfl, rfl, inv_getId h1 c.goal, coord_prefix (getId_prefix ..) (getId_coord inv_empty c.start), getId_coord h1 c.goal⟩

/-- a call of InitializeEnv, of either kind -/
def initBy (o : NavObj) : NavArgs ⊕ Option Text → NavObj × Except NavFail Unit
  | .inl a => initArgs o a
  | .inr t => initFile o t

theorem init_ok {o : NavObj} {k : NavArgs ⊕ Option Text} (h : (initBy o k).2 = .ok ()) : (initBy o k).1.mapped ≠ 0 := by
  cases k with
  | inl a =>
    simp only [initBy] at h ⊢
    unfold initArgs at h ⊢
    split
    · next hs => rw [if_pos hs] at h; cases h
    · next hs => rw [if_neg hs] at h; exact general_ok h
  | inr t =>
    simp only [initBy] at h ⊢
    unfold initFile at h ⊢
    split
    · cases h
    · next t =>
      simp only at h
      split
      · next e he => rw [he] at h; cases h
      · next c r hc => rw [hc] at h; exact general_ok h

theorem init_mono {o : NavObj} {k : NavArgs ⊕ Option Text} (h : o.mapped ≠ 0) : (initBy o k).1.mapped ≠ 0 ∧ (initBy o k).2 ≠ .ok () := by
  cases k with
  | inl a =>
    simp only [initBy]
    unfold initArgs
    split
    · exact ⟨h, by simp⟩
    · exact general_mono h
  | inr t =>
    simp only [initBy]
    unfold initFile
    split
    · exact ⟨h, by simp⟩
    · split
      · exact ⟨h, by simp⟩
      · exact general_mono h

theorem run_mono : ∀ {ops : List NavObj.Op} {o : NavObj}, o.mapped ≠ 0 → (NavObj.run o ops).mapped ≠ 0 := by
  intro ops
  induction ops with
  | nil => intro o h; exact h
  | cons op ops ih =>
    intro o h
    show (NavObj.run (NavObj.step o op) ops).mapped ≠ 0
    apply ih
    cases op with
    | setParam n v => exact h
    | initArgs a => exact (init_mono (k := .inl a) h).1
    | initFile t => exact (init_mono (k := .inr t) h).1
    | use xs =>
      simp only [NavObj.step]
      split
      · exact h
      · split
        · split
          · exact h
          · exact Nat.ne_of_gt (lt_of_lt_of_le (Nat.pos_of_ne_zero h) (Nat.le_max_left _ _))
        · exact h

/-- **C197** (violated: a grid map can be initialised again) After a call of InitializeEnv that succeeded, and any calls after it, every call of InitializeEnv fails, whatever its arguments or file. -/
theorem nav_never_again {o : NavObj} {k k' : NavArgs ⊕ Option Text} {ops : List NavObj.Op} (h : (initBy o k).2 = .ok ()) :
    (initBy (NavObj.run (initBy o k).1 ops) k').2 ≠ .ok () :=
  (init_mono (run_mono (init_ok h))).2

/-- the calls before the first success: parameters, and calls of InitializeEnv -/
inductive Early : List NavObj.Op → List (String × Int) → NavObj → Prop
  | nil : Early [] [] NavObj.new
  | param {ops ps o} (n : String) (v : Int) : Early ops ps o → Early (ops ++ [.setParam n v]) (ps ++ [(n, v)]) (NavObj.step o (.setParam n v))
  | args {ops ps o} {a : NavArgs} {e : NavFail} : Early ops ps o → (NavObj.initArgs o a).2 = .error e → Early (ops ++ [.initArgs a]) ps (NavObj.step o (.initArgs a))
  | file {ops ps o} {t : Option Text} {e : NavFail} : Early ops ps o → (NavObj.initFile o t).2 = .error e → Early (ops ++ [.initFile t]) ps (NavObj.step o (.initFile t))

/-- 16 directions if the last call for `is16connected` had a value other than 0, and 8 otherwise -/
def dirsAfter (ps : List (String × Int)) : Nat :=
  match (ps.filter fun nv => decide (nv.1 = "is16connected")).getLast? with
  | some nv => if nv.2 ≠ 0 then 16 else 8
  | none => 8

theorem general_fresh {o : NavObj} {c : NavCfg} (h : o.mapped = 0) : (general o c).2 = .ok () := by
  unfold general
  rw [if_neg (by simp [h])]

theorem early_run {ops : List NavObj.Op} {ps : List (String × Int)} {o : NavObj} (h : Early ops ps o) : o = NavObj.run NavObj.new ops := by
  induction h with
  | nil => rfl
  | param n v _ ih => rw [ih]; unfold NavObj.run; rw [List.foldl_append]; rfl
  | args _ _ ih => rw [ih]; unfold NavObj.run; rw [List.foldl_append]; rfl
  | file _ _ ih => rw [ih]; unfold NavObj.run; rw [List.foldl_append]; rfl

theorem early_state {ops : List NavObj.Op} {ps : List (String × Int)} {o : NavObj} (h : Early ops ps o) : o = ⟨(dirsAfter ps, false), 0, none⟩ := by
  induction h with
  | nil => rfl
  | @param ops ps o n v _ ih =>
    rw [ih]
    simp only [NavObj.step, Nav2DInit.setParam, Bool.false_eq_true, if_false]
    have e : dirsAfter (ps ++ [(n, v)]) = if n = "is16connected" then (if v ≠ 0 then 16 else 8) else dirsAfter ps := by
      unfold dirsAfter
      rw [List.filter_append]
      by_cases hn : n = "is16connected"
      · simp [hn]
      · simp [hn]
    rw [e]
    by_cases hn : n = "is16connected"
    · by_cases hv : v = 0
      · simp [hn, hv]
      · simp [hn, hv]
    · simp [hn]
  | @args ops ps o a e _ hf ih =>
    rw [ih] at hf ⊢
    simp only [NavObj.step]
    unfold NavObj.initArgs at hf ⊢
    split
    · rfl
    · next hs => rw [if_neg hs, general_fresh rfl] at hf; cases hf
  | @file ops ps o t e _ hf ih =>
    rw [ih] at hf ⊢
    simp only [NavObj.step]
    unfold NavObj.initFile at hf ⊢
    split
    · rfl
    · simp only at hf
      split
      · rfl
      · next c r hc => rw [hc] at hf; simp only at hf; rw [general_fresh rfl] at hf; cases hf

theorem general_made (d : Nat) (c : NavCfg) : (general ⟨(d, false), 0, none⟩ c).1 = ⟨(d, true), (StateTable.getId Nav2D.hash (StateTable.getId Nav2D.hash StateTable.empty c.start).1 c.goal).1.table.length,
      some ⟨{ cfg := c, tab := (StateTable.getId Nav2D.hash (StateTable.getId Nav2D.hash StateTable.empty c.start).1 c.goal).1,
              startId := (StateTable.getId Nav2D.hash StateTable.empty c.start).2, goalId := (StateTable.getId Nav2D.hash (StateTable.getId Nav2D.hash StateTable.empty c.start).1 c.goal).2 }, c.W, c.H⟩⟩ := by
  unfold general
  simp

/-- **C197** As long as no call of InitializeEnv succeeded, calls that failed have no effect: InitializeEnv with arguments then succeeds exactly if the start is in the map, and the environment is the one of
a new object with the connectivity set last. -/
theorem nav_retry_args {ops : List NavObj.Op} {ps : List (String × Int)} (h : Early ops ps (NavObj.run NavObj.new ops)) (a : NavArgs) :
    ((initArgs (NavObj.run NavObj.new ops) a).2 = .ok () ↔ InMap a.W a.H a.start.1 a.start.2) ∧
    (InMap a.W a.H a.start.1 a.start.2 → ∃ st, Nav2D.init a.W a.H a.map a.start a.goal a.obs (dirsAfter ps) = .ok st ∧
      (initArgs (NavObj.run NavObj.new ops) a).1.env = some ⟨st, a.W, a.H⟩) := by
  rw [early_state h]
  unfold initArgs InMap
  split
  · next hs =>
    refine ⟨⟨fun h => (by cases h), ?_⟩, ?_⟩
    · intro h; exfalso; omega
    · intro h; exfalso; omega
  · next hs =>
    refine ⟨⟨fun _ => by omega, fun _ => general_fresh rfl⟩, fun _ => ?_⟩
    refine ⟨_, ?_, by rw [general_made]⟩
    unfold Nav2D.init
    rw [if_neg (by omega), if_neg (by omega)]

/-- **C197** The same with a file: the call succeeds exactly if the file can be read (C147, C148), and the environment is the one described there, with the connectivity set last. -/
theorem nav_retry_file {ops : List NavObj.Op} {ps : List (String × Int)} (h : Early ops ps (NavObj.run NavObj.new ops)) (t : Text) :
    ((initFile (NavObj.run NavObj.new ops) (some t)).2 = .ok () ↔ ∃ c rest, readNav2D (dirsAfter ps) t = .ok (c, rest)) ∧
    (∀ {c rest}, readNav2D (dirsAfter ps) t = .ok (c, rest) → ∃ st, (initFile (NavObj.run NavObj.new ops) (some t)).1.env = some ⟨st, c.W, c.H⟩ ∧ st.cfg = c ∧
      st.getCoord st.startId = .ok c.start ∧ st.getCoord st.goalId = .ok c.goal) := by
  rw [early_state h]
  unfold initFile
  simp only
  cases hr : readNav2D (dirsAfter ps) t with
  | error e =>
    refine ⟨⟨fun h => (by cases h), ?_⟩, ?_⟩
    · rintro ⟨c, r, h⟩; cases h
    · intro c r h; cases h
  | ok p =>
    obtain ⟨c, r⟩ := p
    refine ⟨⟨fun _ => ⟨c, r, rfl⟩, fun _ => general_fresh rfl⟩, ?_⟩
    intro c' r' h'
    cases h'
    obtain ⟨st, e1, e2, i⟩ := general_env (o := ⟨(dirsAfter ps, false), 0, none⟩) (c := c) (general_fresh rfl)
    exact ⟨st, e1, e2, by rw [← e2]; exact getCoord_ok.mpr i.start, by rw [← e2]; exact getCoord_ok.mpr i.goal⟩

/-! ## A call that is rejected changes the size of the map (C198) -/

/-- every reachable object has 8 or 16 directions -/
theorem reach_dirs (ops : List NavObj.Op) : (NavObj.run NavObj.new ops).par.1 = 8 ∨ (NavObj.run NavObj.new ops).par.1 = 16 := by
  have gen : ∀ (o : NavObj) (c : NavCfg), (general o c).1.par.1 = o.par.1 := by
    intro o c; unfold general; split <;> rfl
  have key : ∀ (ops : List NavObj.Op) (o : NavObj), (o.par.1 = 8 ∨ o.par.1 = 16) → (NavObj.run o ops).par.1 = 8 ∨ (NavObj.run o ops).par.1 = 16 := by
    intro ops
    induction ops with
    | nil => intro o h; exact h
    | cons op ops ih =>
      intro o h
      apply ih
      cases op with
      | setParam n v =>
        simp only [NavObj.step, Nav2DInit.setParam]
        split
        · exact h
        · split
          · split
            · exact .inr rfl
            · exact .inl rfl
          · exact h
      | initArgs a =>
        simp only [NavObj.step, NavObj.initArgs]
        split
        · exact h
        · rw [gen]; exact h
      | initFile t =>
        simp only [NavObj.step, NavObj.initFile]
        split
        · exact h
        · split
          · exact h
          · rw [gen]; exact h
      | use xs =>
        simp only [NavObj.step]
        split
        · exact h
        · split
          · split <;> exact h
          · exact h
  exact key ops _ (.inl rfl)

/-- after a call of InitializeEnv that succeeded the array has the size in the configuration, and the start is in the map -/
theorem init_env {o : NavObj} {k : NavArgs ⊕ Option Text} (h : (initBy o k).2 = .ok ()) :
    ∃ st, (initBy o k).1.env = some ⟨st, st.cfg.W, st.cfg.H⟩ ∧ NInv st ∧ st.cfg.dirs = o.par.1 ∧ InMap st.cfg.W st.cfg.H st.cfg.start.1 st.cfg.start.2 := by
  cases k with
  | inl a =>
    simp only [initBy] at h ⊢
    unfold initArgs at h ⊢
    split
    · next hs => rw [if_pos hs] at h; cases h
    · next hs =>
      rw [if_neg hs] at h
      obtain ⟨st, e1, e2, e3⟩ := general_env h
      refine ⟨st, by rw [e1, e2], e3, by rw [e2], ?_⟩
      rw [e2]; unfold InMap; simp only; omega
  | inr t =>
    simp only [initBy] at h ⊢
    unfold initFile at h ⊢
    split
    · cases h
    · next t =>
      simp only at h
      split
      · next e he => rw [he] at h; cases h
      · next c r hc =>
        rw [hc] at h
        obtain ⟨st, e1, e2, e3⟩ := general_env h
        obtain ⟨_, _, f1, _, _, _, f2, _⟩ := CfgFileProps.nav2d_file_safe hc
        exact ⟨st, by rw [e1, e2], e3, by rw [e2, f2], by rw [e2]; exact f1⟩

theorem use_env {o : NavObj} {st : Nav2D} {xs : List NavOp} {m : NavMem} (i : NInv st) (he : o.env = some ⟨st, st.cfg.W, st.cfg.H⟩) (h : (NavObj.step o (.use xs)).env = some m) :
    st.run xs = some m.nav ∧ NInv m.nav ∧ m.aw = m.nav.cfg.W ∧ m.ah = m.nav.cfg.H ∧ m.nav.cfg.dirs = st.cfg.dirs := by
  simp only [NavObj.step, he, and_self, if_true] at h
  cases hr : st.run xs with
  | none => rw [hr] at h; cases h
  | some st' =>
    rw [hr] at h
    cases h
    obtain ⟨i', sm⟩ := run_inv xs i hr
    exact ⟨rfl, i', sm.W.symm, sm.H.symm, sm.dirs⟩

/-- while the array has the size in the configuration, GetSuccs is the one of C15 -/
theorem succs_synced {m : NavMem} (hw : m.aw = m.nav.cfg.W) (hh : m.ah = m.nav.cfg.H) (id : Nat) : m.getSuccs id = m.nav.getSuccs id := by
  have c : ∀ x y, m.cell x y = m.nav.cfg.cell x y := by
    intro x y; unfold NavMem.cell NavCfg.cell; rw [hw, hh]
  have cm : ∀ x y a b, m.costMult x y a b = m.nav.cfg.costMult x y a b := by
    intro x y a b; unfold NavMem.costMult NavCfg.costMult; simp only [c]
    split
    · rfl
    · split <;> rfl
  have e : ∀ x y a, m.succAct x y a = m.nav.cfg.succAct x y a := by
    intro x y a
    have tl : m.nav.cfg.testBounds x y = false ∨ m.nav.cfg.valid (x + a.dx) (y + a.dy) = true → m.succTail x y a = m.nav.cfg.succAct x y a := by
      intro hb
      unfold NavMem.succTail NavCfg.succAct
      rw [if_neg (by rintro ⟨h1, h2⟩; rcases hb with h | h <;> simp_all), c]
      cases m.nav.cfg.cell (x + a.dx) (y + a.dy) with
      | error e => rfl
      | ok t =>
        simp only [cm]
        cases m.nav.cfg.costMult x y a t with
        | error e => rfl
        | ok v => rfl
    have v : m.valid (x + a.dx) (y + a.dy) = .ok (m.nav.cfg.valid (x + a.dx) (y + a.dy)) := by
      unfold NavMem.valid NavCfg.valid
      by_cases hw : m.nav.cfg.within (x + a.dx) (y + a.dy) = true
      · rw [if_pos hw, c, hw]
        have := NavCfg.cell_ok (NavCfg.within_iff.mp hw)
        rw [this]; simp
      · rw [if_neg hw, Bool.eq_false_iff.mpr hw]; simp
    unfold NavMem.succAct
    by_cases hb : m.nav.cfg.testBounds x y = true
    · rw [if_pos hb, v]
      cases hv : m.nav.cfg.valid (x + a.dx) (y + a.dy) with
      | true => exact tl (.inr hv)
      | false => unfold NavCfg.succAct; rw [if_pos ⟨hb, hv⟩]
    · rw [if_neg hb]; exact tl (.inl (by simpa using hb))
  unfold NavMem.getSuccs Nav2D.getSuccs
  split
  · rfl
  · split
    · next h => rw [h]
    · next x y h =>
      rw [h]; simp only
      have : m.succAct x y = m.nav.cfg.succAct x y := funext (e x y)
      rw [this]

/-- **C198** (violated: a call of InitializeEnv that is rejected leaves an initialised grid map as it is) Take any object, a call of InitializeEnv that succeeds, any calls on the environment, and then a call
of InitializeEnv whose start is outside its map.  It throws; the states, the costs of the cells and the array stay, but the width, the height and the threshold are those of the rejected call. -/
theorem nav_rejected {o : NavObj} {k : NavArgs ⊕ Option Text} {xs : List NavOp} {m : NavMem} {a : NavArgs} (_h : (initBy o k).2 = .ok ())
    (he : (NavObj.step (initBy o k).1 (.use xs)).env = some m) (hs : ¬ InMap a.W a.H a.start.1 a.start.2) :
    (initArgs (NavObj.step (initBy o k).1 (.use xs)) a).2 = .error .start ∧
    ∃ m', (initArgs (NavObj.step (initBy o k).1 (.use xs)) a).1.env = some m' ∧ m'.aw = m.aw ∧ m'.ah = m.ah ∧ m'.nav.tab = m.nav.tab ∧ m'.nav.startId = m.nav.startId ∧
      m'.nav.goalId = m.nav.goalId ∧ m'.nav.cfg.grid = m.nav.cfg.grid ∧ m'.nav.cfg.dirs = m.nav.cfg.dirs ∧ m'.nav.cfg.W = a.W ∧ m'.nav.cfg.H = a.H ∧ m'.nav.cfg.obs = a.obs := by
  have hs' : a.start.1 < 0 ∨ a.start.1 ≥ a.W ∨ a.start.2 < 0 ∨ a.start.2 ≥ a.H := by
    unfold InMap at hs; omega
  unfold initArgs
  rw [if_pos hs', he]
  exact ⟨rfl, _, rfl, rfl, rfl, rfl, rfl, rfl, rfl, rfl, rfl, rfl, rfl⟩

/-- **C198** If the rejected map is wider, GetSuccs of a state in the last column of the old map (other than the goal, and not in the last row of the rejected map) reads outside the array. -/
theorem nav_rejected_oob {ops : List NavObj.Op} {o : NavObj} {k : NavArgs ⊕ Option Text} {xs : List NavOp} {m m' : NavMem} {a : NavArgs} (ho : o = NavObj.run NavObj.new ops)
    (h : (initBy o k).2 = .ok ()) (he : (NavObj.step (initBy o k).1 (.use xs)).env = some m) (hs : ¬ InMap a.W a.H a.start.1 a.start.2)
    (he' : (initArgs (NavObj.step (initBy o k).1 (.use xs)) a).1.env = some m') {id : Nat} {y : Int} (hg : id ≠ m.nav.goalId)
    (hc : m.nav.getCoord id = .ok (m.nav.cfg.W - 1, y)) (hin : InMap m.nav.cfg.W m.nav.cfg.H (m.nav.cfg.W - 1) y) (hW : m.nav.cfg.W < a.W) (hH : y + 1 < a.H) :
    m'.getSuccs id = .error .oob := by
  obtain ⟨_, m'', e0, e1, e2, e3, e4, e5, e6, e7, e8, e9, e10⟩ := nav_rejected h he hs
  rw [he'] at e0; cases e0
  obtain ⟨st, f1, f2, f3, _⟩ := init_env h
  obtain ⟨_, _, g1, g2, g3⟩ := use_env f2 f1 he
  have hacts : ∃ as, m'.nav.cfg.acts = ⟨1, 1, (0, 1), (1, 0), true⟩ :: as := by
    unfold NavCfg.acts
    rw [e7, g3, f3, ho]
    rcases reach_dirs ops with r | r <;> rw [r] <;> exact ⟨_, rfl⟩
  obtain ⟨as, ha⟩ := hacts
  have hcell : ∀ z, m'.cell (m.nav.cfg.W - 1 + 1) z = .error .oob := by
    intro z
    unfold NavMem.cell
    rw [if_neg (by rw [e1, g1]; omega)]
  have hact : m'.succAct (m.nav.cfg.W - 1) y ⟨1, 1, (0, 1), (1, 0), true⟩ = .error .oob := by
    have tl : m'.succTail (m.nav.cfg.W - 1) y ⟨1, 1, (0, 1), (1, 0), true⟩ = .error .oob := by
      unfold NavMem.succTail; simp only [hcell]
    unfold NavMem.succAct
    split
    · have : m'.valid (m.nav.cfg.W - 1 + 1) (y + 1) = .error .oob := by
        unfold NavMem.valid
        obtain ⟨i1, i2, i3, i4⟩ := hin
        rw [if_pos (by unfold NavCfg.within; rw [decide_eq_true_iff, e8, e9]; omega), hcell]
      simp only [this]
    · exact tl
  unfold NavMem.getSuccs
  rw [if_neg (by rw [e5]; exact hg)]
  have hc' : m'.nav.getCoord id = .ok (m.nav.cfg.W - 1, y) := by
    unfold Nav2D.getCoord at hc ⊢; rw [e3]; exact hc
  rw [hc']
  simp only [ha, Nav2D.actLoop, hact]

/-! ## A grid map re-created from GetEnvParms (C199) -/

theorem step_start {st st' : Nav2D} {op : NavOp} (i : NInv st) (h : st.step op = some st') (hs : InMap st.cfg.W st.cfg.H st.cfg.start.1 st.cfg.start.2) :
    InMap st'.cfg.W st'.cfg.H st'.cfg.start.1 st'.cfg.start.2 := by
  have ext : ∀ {s' : Nav2D}, Ext st s' → InMap s'.cfg.W s'.cfg.H s'.cfg.start.1 s'.cfg.start.2 := by
    intro s' e; rw [e.cfg]; exact hs
  cases op with
  | getState x y => cases h; exact ext (getState_ext st (x, y))
  | getSuccs id =>
    simp only [Nav2D.step] at h
    split at h
    · next r q =>
      cases h
      unfold getSuccs at q
      split at q
      · cases q; exact hs
      · split at q
        · cases q
        · exact ext (actLoop_inv (st' := r.1) (l := r.2) _ _ i.tab q).2
    · cases h
  | getPreds id =>
    simp only [Nav2D.step] at h
    split at h
    · next r q =>
      cases h
      unfold getPreds at q
      split at q
      · cases q
      · split at q
        · cases q
        · split at q
          · cases q; exact hs
          · exact ext (actLoop_inv (st' := r.1) (l := r.2) _ _ i.tab q).2
    · cases h
  | setStart x y =>
    cases h
    unfold setStart
    split
    · next hw => exact NavCfg.within_iff.mp hw
    · exact hs
  | setGoal x y =>
    cases h
    unfold setGoal
    split
    · exact hs
    · exact hs
  | updateCost x y v =>
    simp only [Nav2D.step] at h
    split at h
    · next r q =>
      cases h
      unfold updateCost at q
      split at q
      · cases q
      · cases q; exact hs
    · cases h
  | changedEdges cs => cases h; exact ext (changedEdges_inv cs st i.tab).2

theorem run_start : ∀ {ops : List NavOp} {st st' : Nav2D}, NInv st → st.run ops = some st' → InMap st.cfg.W st.cfg.H st.cfg.start.1 st.cfg.start.2 →
    InMap st'.cfg.W st'.cfg.H st'.cfg.start.1 st'.cfg.start.2 := by
  intro ops
  induction ops with
  | nil => intro st st' _ h hs; cases h; exact hs
  | cons op ops ih =>
    intro st st' i h hs
    rw [Nav2D.run] at h
    split at h
    · cases h
    · next st1 q => exact ih (step_inv i q).1 h (step_start i q hs)

theorem edge_congr {W H : Int} {g g' : Int → Int → Nat} (h : ∀ x y, InMap W H x y → g x y = g' x y) {obs : Nat} {is16 : Bool} {p q : Int × Int} {c : Nat}
    (e : GridSpec.Edge W H g obs is16 p q c) : GridSpec.Edge W H g' obs is16 p q c := by
  obtain ⟨m, l, e1, ⟨e2, ⟨cx, cy, e3, e4, e5⟩, e6⟩, e7, e8⟩ := e
  refine ⟨m, l, e1, ⟨?_, ⟨cx, cy, e3, e4, ?_⟩, e6⟩, e7, e8⟩
  · intro x y t nz
    obtain ⟨i, le⟩ := e2 x y t nz
    exact ⟨i, by rw [← h _ _ i]; exact le⟩
  · rw [← h _ _ (e2 cx cy e3 e4).1]; exact e5

/-- **C199** After any calls on a grid map, InitializeEnv on a new object of the same connectivity, with what GetEnvParms and GetMapCost report, succeeds; start and goal are the same cells, and GetSuccs of any
cell of the map lists the same cells at the same costs. -/
theorem nav_copy {W H : Int} {map : Int → Nat} {s g : Int × Int} {obs : Nat} {is16 : Bool} {ops : List NavOp} {st : Nav2D} (h : Hist W H map s g obs is16 ops st) :
    ∃ st2, Nav2D.init st.getParms.W st.getParms.H st.getParms.map st.getParms.start st.getParms.goal st.getParms.obs (dirsOf is16) = .ok st2 ∧
      (∀ {p q}, st.getCoord st.startId = .ok p → st.getCoord st.goalId = .ok q → st2.getCoord st2.startId = .ok p ∧ st2.getCoord st2.goalId = .ok q) ∧
      ∀ {id id2 p}, id ≠ st.goalId → id2 ≠ st2.goalId → st.getCoord id = .ok p → st2.getCoord id2 = .ok p → InMap W H p.1 p.2 →
        ∃ st' l st2' l2, st.getSuccs id = .ok (st', l) ∧ st2.getSuccs id2 = .ok (st2', l2) ∧
          ∀ k c, (∃ i, (i, c) ∈ l ∧ st'.getCoord i = .ok k) ↔ ∃ i, (i, c) ∈ l2 ∧ st2'.getCoord i = .ok k := by
  obtain ⟨i, eW, eH, eo, ed⟩ := h.inv
  have hin : InMap st.cfg.W st.cfg.H st.cfg.start.1 st.cfg.start.2 := by
    obtain ⟨st0, h0, h1⟩ := h
    obtain ⟨i0, c0⟩ := init_inv h0
    refine run_start i0 h1 ?_
    rw [c0]
    unfold Nav2D.init at h0
    split at h0
    · cases h0
    · split at h0
      · cases h0
      · unfold InMap; simp only; omega
  have ex : ∃ st2, Nav2D.init st.getParms.W st.getParms.H st.getParms.map st.getParms.start st.getParms.goal st.getParms.obs (dirsOf is16) = .ok st2 := by
    obtain ⟨h1, h2, h3, h4⟩ := hin
    unfold Nav2D.init
    rw [if_neg (by simp only [Nav2D.getParms]; omega), if_neg (by simp only [Nav2D.getParms]; omega)]
    exact ⟨_, rfl⟩
  obtain ⟨st2, h2⟩ := ex
  have H2 : Hist st.cfg.W st.cfg.H st.getParms.map st.cfg.start st.cfg.goal st.cfg.obs is16 [] st2 := ⟨st2, h2, rfl⟩
  obtain ⟨i2, c2⟩ := init_inv h2
  refine ⟨st2, h2, ?_, ?_⟩
  · intro p q hp hq
    have a1 := getCoord_ok.mpr i.start
    have a2 := getCoord_ok.mpr i.goal
    rw [hp] at a1; rw [hq] at a2
    have b1 := getCoord_ok.mpr i2.start
    have b2 := getCoord_ok.mpr i2.goal
    rw [c2] at b1 b2
    exact ⟨by rw [a1]; exact b1, by rw [a2]; exact b2⟩
  · intro id id2 p hid hid2 hp hp2 hm
    obtain ⟨st', l, s1, _, _, s2⟩ := succs_exact h hid hp hm
    obtain ⟨st2', l2, t1, _, _, t2⟩ := succs_exact H2 hid2 hp2 (by rw [eW, eH]; exact hm)
    refine ⟨st', l, st2', l2, s1, t1, fun k c => ?_⟩
    rw [s2, t2, eW, eH, eo]
    have g : ∀ x y, InMap W H x y → st.cfg.grid x y = st2.cfg.grid x y := by
      rintro x y ⟨i1, j1, i3, j3⟩
      rw [c2]
      simp only [Nav2D.getParms, eW]
      rw [Int.add_mul_emod_self_right, Int.emod_eq_of_lt i1 j1, Int.add_mul_ediv_right _ _ (by omega), Int.ediv_eq_zero_of_lt i1 j1, Int.zero_add]
    exact ⟨edge_congr g, edge_congr fun x y hxy => (g x y hxy).symm⟩

end Sbpl.Nav2DProps
