import Mathlib.Tactic.Linarith
import Mathlib.Tactic.SplitIfs
import Mathlib.Tactic.IntervalCases
import Verif.Model.Nav2D
import Verif.Proofs.StateTable
import Verif.Spec.Nav2D
/-! # `EnvironmentNAV2D`: helper lemmas -/

namespace Sbpl
open GridSpec StateTable

/-- cells between source and target of an action -/
def Act.extras (a : Act) : List (Int × Int) :=
  if a.small then (if a.dx ≠ 0 ∧ a.dy ≠ 0 then [(0, a.dy), (a.dx, 0)] else []) else [a.i0, a.i1]

/-- the maximal cost of `base` and the extra cells -/
def NavCfg.foldMax (c : NavCfg) (x y : Int) (l : List (Int × Int)) (base : Nat) : Nat :=
  l.foldl (fun m e => max m (c.grid (x + e.1) (y + e.2))) base

theorem NavCfg.foldMax_le {c : NavCfg} {x y : Int} {l : List (Int × Int)} {b m : Nat} :
    c.foldMax x y l b ≤ m ↔ b ≤ m ∧ ∀ e ∈ l, c.grid (x + e.1) (y + e.2) ≤ m := by
  unfold NavCfg.foldMax
  induction l generalizing b with
  | nil => simp
  | cons e l ih =>
    rw [List.foldl_cons, ih]
    constructor
    · rintro ⟨h, h'⟩
      refine ⟨by omega, ?_⟩
      intro e' he'
      rcases List.mem_cons.mp he' with rfl | he'
      · omega
      · exact h' e' he'
    · rintro ⟨h, h'⟩
      have := h' e (by simp)
      exact ⟨by omega, fun e' he' => h' e' (by simp [he'])⟩

theorem NavCfg.foldMax_mem (c : NavCfg) (x y : Int) (l : List (Int × Int)) (b : Nat) :
    c.foldMax x y l b = b ∨ ∃ e ∈ l, c.grid (x + e.1) (y + e.2) = c.foldMax x y l b := by
  unfold NavCfg.foldMax
  induction l generalizing b with
  | nil => simp
  | cons e l ih =>
    rw [List.foldl_cons]
    rcases ih (max b (c.grid (x + e.1) (y + e.2))) with h | ⟨e', he', h⟩
    · rcases Nat.le_total b (c.grid (x + e.1) (y + e.2)) with q | q
      · right; exact ⟨e, by simp, by omega⟩
      · left; omega
    · right; exact ⟨e', by simp [he'], h⟩

theorem Act.cases {P : Act → Prop} (h : ∀ a ∈ navActs, P a) {a : Act} (ha : a ∈ navActs) : P a := h a ha

/-- facts about the rows of the action table -/
theorem Act.facts : ∀ a ∈ navActs,
    (-2 ≤ a.dx ∧ a.dx ≤ 2 ∧ -2 ≤ a.dy ∧ a.dy ≤ 2) ∧
    (∀ e ∈ a.extras, ((0 ≤ e.1 ∧ e.1 ≤ a.dx) ∨ (a.dx ≤ e.1 ∧ e.1 ≤ 0)) ∧
      ((0 ≤ e.2 ∧ e.2 ≤ a.dy) ∨ (a.dy ≤ e.2 ∧ e.2 ≤ 0))) ∧
    (1000 ≤ a.dist ∧ ¬(a.dx = 0 ∧ a.dy = 0)) := by
  decide

namespace NavCfg
variable {c : NavCfg} {x y : Int} {a : Act}

theorem within_iff : c.within x y = true ↔ InMap c.W c.H x y := by
  simp [within, InMap]

theorem cell_ok (h : InMap c.W c.H x y) : c.cell x y = .ok (c.grid x y) := by
  unfold cell; rw [if_pos (show 0 ≤ x ∧ x < c.W ∧ 0 ≤ y ∧ y < c.H from h)]

theorem costMult_ok {base : Nat} (h : ∀ e ∈ a.extras, InMap c.W c.H (x + e.1) (y + e.2)) :
    c.costMult x y a base = .ok (c.foldMax x y a.extras base) := by
  unfold costMult foldMax
  cases hs : a.small with
  | true =>
    by_cases hd : a.dx ≠ 0 ∧ a.dy ≠ 0
    · have he : a.extras = [(0, a.dy), (a.dx, 0)] := by simp [Act.extras, hs, hd]
      rw [he] at h
      have h0 := h (0, a.dy) (by simp)
      have h1 := h (a.dx, 0) (by simp)
      simp only [Int.add_zero] at h0 h1
      rw [he]
      have c0 : (x + a.dx ≠ x ∧ y + a.dy ≠ y) ∧ true = true := ⟨⟨by omega, by omega⟩, rfl⟩
      rw [if_pos c0, cell_ok h0, cell_ok h1]
      simp
    · have he : a.extras = [] := by simp [Act.extras, hs, hd]
      have c0 : ¬((x + a.dx ≠ x ∧ y + a.dy ≠ y) ∧ true = true) := by
        rintro ⟨⟨p, q⟩, -⟩; exact hd ⟨by omega, by omega⟩
      rw [if_neg c0, he]
      simp
  | false =>
    have he : a.extras = [a.i0, a.i1] := by simp [Act.extras, hs]
    rw [he] at h
    have h0 := h a.i0 (by simp)
    have h1 := h a.i1 (by simp)
    rw [he, if_neg (by simp), if_pos rfl, cell_ok h0, cell_ok h1]
    simp

theorem target_within (ha : a ∈ navActs) (hin : InMap c.W c.H x y) (ht : c.testBounds x y = false) :
    InMap c.W c.H (x + a.dx) (y + a.dy) := by
  have f := (Act.facts a ha).1
  unfold testBounds at ht
  rw [decide_eq_false_iff_not] at ht
  unfold InMap at *
  omega

theorem extras_within (ha : a ∈ navActs) (hin : InMap c.W c.H x y) (ht : InMap c.W c.H (x + a.dx) (y + a.dy)) :
    ∀ e ∈ a.extras, InMap c.W c.H (x + e.1) (y + e.2) := by
  intro e he
  have f := (Act.facts a ha).2.1 e he
  unfold InMap at *
  omega

/-- what one action of GetSuccs yields -/
def succG (c : NavCfg) (x y : Int) (a : Act) : Option ((Int × Int) × Nat) :=
  if c.within (x + a.dx) (y + a.dy) = true ∧ c.foldMax x y a.extras (c.grid (x + a.dx) (y + a.dy)) < c.obs then
    some ((x + a.dx, y + a.dy), (c.foldMax x y a.extras (c.grid (x + a.dx) (y + a.dy)) + 1) * a.dist)
  else none

/-- what one action of GetPreds yields -/
def predG (c : NavCfg) (x y : Int) (a : Act) : Option ((Int × Int) × Nat) :=
  if c.within (x + a.dx) (y + a.dy) = true ∧ (c.testBounds x y = true → c.grid (x + a.dx) (y + a.dy) < c.obs) ∧
      c.foldMax x y a.extras (c.grid x y) < c.obs then
    some ((x + a.dx, y + a.dy), (c.foldMax x y a.extras (c.grid x y) + 1) * a.dist)
  else none

theorem succAct_eq (ha : a ∈ navActs) (hin : InMap c.W c.H x y) : c.succAct x y a = .ok (c.succG x y a) := by
  unfold succAct succG
  by_cases ht : InMap c.W c.H (x + a.dx) (y + a.dy)
  · have hw := within_iff.mpr ht
    rw [cell_ok ht]
    simp only [costMult_ok (extras_within ha hin ht)]
    by_cases hv : c.testBounds x y = true ∧ c.valid (x + a.dx) (y + a.dy) = false
    · rw [if_pos hv]
      have hv2 := hv.2
      unfold valid at hv2
      rw [hw, Bool.true_and, decide_eq_false_iff_not] at hv2
      have hm : ¬(c.foldMax x y a.extras (c.grid (x + a.dx) (y + a.dy)) < c.obs) := by
        intro h
        have := (foldMax_le (c := c) (x := x) (y := y) (l := a.extras)).mp (Nat.le_refl (c.foldMax x y a.extras (c.grid (x + a.dx) (y + a.dy))))
        omega
      rw [if_neg (fun h => hm h.2)]
    · rw [if_neg hv]
      by_cases hm : c.foldMax x y a.extras (c.grid (x + a.dx) (y + a.dy)) < c.obs
      · rw [if_neg (by omega), if_pos ⟨hw, hm⟩]
      · rw [if_pos (by omega), if_neg (fun h => hm h.2)]
  · have hw : c.within (x + a.dx) (y + a.dy) = false := by
      rw [← Bool.not_eq_true]; exact fun h => ht (within_iff.mp h)
    have htb : c.testBounds x y = true := by
      cases q : c.testBounds x y with
      | true => rfl
      | false => exact absurd (target_within ha hin q) ht
    rw [if_pos ⟨htb, by simp [valid, hw]⟩, if_neg (by simp [hw])]

theorem predAct_eq (ha : a ∈ navActs) (hin : InMap c.W c.H x y) :
    c.predAct x y (c.grid x y) a = .ok (c.predG x y a) := by
  unfold predAct predG
  by_cases ht : InMap c.W c.H (x + a.dx) (y + a.dy)
  · have hw := within_iff.mpr ht
    rw [costMult_ok (extras_within ha hin ht)]
    by_cases hv : c.testBounds x y = true ∧ c.valid (x + a.dx) (y + a.dy) = false
    · rw [if_pos hv]
      have hv2 := hv.2
      unfold valid at hv2
      rw [hw, Bool.true_and, decide_eq_false_iff_not] at hv2
      rw [if_neg (fun h => hv2 (h.2.1 hv.1))]
    · rw [if_neg hv]
      have hg : c.testBounds x y = true → c.grid (x + a.dx) (y + a.dy) < c.obs := by
        intro q
        have : c.valid (x + a.dx) (y + a.dy) = true := by
          rw [← Bool.not_eq_false]; exact fun h => hv ⟨q, h⟩
        unfold valid at this
        rw [hw, Bool.true_and] at this
        exact of_decide_eq_true this
      by_cases hm : c.foldMax x y a.extras (c.grid x y) < c.obs
      · simp only [if_neg (show ¬ (c.foldMax x y a.extras (c.grid x y) ≥ c.obs) by omega), if_pos (show _ ∧ _ ∧ _ from ⟨hw, hg, hm⟩)]
      · simp only [if_pos (show (c.foldMax x y a.extras (c.grid x y) ≥ c.obs) by omega)]
        rw [if_neg (fun h => hm h.2.2)]
  · have hw : c.within (x + a.dx) (y + a.dy) = false := by
      rw [← Bool.not_eq_true]; exact fun h => ht (within_iff.mp h)
    have htb : c.testBounds x y = true := by
      cases q : c.testBounds x y with
      | true => rfl
      | false => exact absurd (target_within ha hin q) ht
    rw [if_pos ⟨htb, by simp [valid, hw]⟩, if_neg (by simp [hw])]

theorem acts_sub : ∀ a ∈ c.acts, a ∈ navActs := fun _ h => List.mem_of_mem_take h

end NavCfg

/-! ## The loop over the actions -/

namespace Nav2D

/-- the table invariant, and start and goal are entered -/
structure NInv (st : Nav2D) : Prop where
  tab : TInv hash st.tab
  start : st.tab.coord st.startId = some st.cfg.start
  goal : st.tab.coord st.goalId = some st.cfg.goal

/-- only states have been added -/
structure Ext (st st' : Nav2D) : Prop where
  pre : st.tab.table <+: st'.tab.table
  cfg : st'.cfg = st.cfg
  start : st'.startId = st.startId
  goal : st'.goalId = st.goalId

theorem Ext.refl (st : Nav2D) : Ext st st := ⟨List.prefix_rfl, rfl, rfl, rfl⟩
theorem Ext.trans {a b c : Nav2D} (h : Ext a b) (h' : Ext b c) : Ext a c :=
  ⟨h.pre.trans h'.pre, h'.cfg.trans h.cfg, h'.start.trans h.start, h'.goal.trans h.goal⟩

theorem NInv.ext {st st' : Nav2D} (h : NInv st) (e : Ext st st') (t : TInv hash st'.tab) : NInv st' := by
  refine ⟨t, ?_, ?_⟩
  · rw [e.start, e.cfg]; exact coord_prefix e.pre h.start
  · rw [e.goal, e.cfg]; exact coord_prefix e.pre h.goal

theorem getState_ext (st : Nav2D) (k : Int × Int) : Ext st (st.getState k).1 :=
  ⟨getId_prefix .., rfl, rfl, rfl⟩

theorem getState_inv {st : Nav2D} (h : TInv hash st.tab) (k : Int × Int) : TInv hash (st.getState k).1.tab :=
  inv_getId h k

theorem getState_coord {st : Nav2D} (h : TInv hash st.tab) (k : Int × Int) :
    (st.getState k).1.tab.coord (st.getState k).2 = some k := getId_coord h k

theorem actLoop_spec {f : Act → Except EnvErr (Option ((Int × Int) × Nat))} {g : Act → Option ((Int × Int) × Nat)} :
    ∀ (as : List Act) (st : Nav2D), (∀ a ∈ as, f a = .ok (g a)) → TInv hash st.tab →
    ∃ st' l, actLoop f as st = .ok (st', l) ∧ TInv hash st'.tab ∧ Ext st st' ∧
      l.map (fun p => (st'.tab.coord p.1, p.2)) = (as.filterMap g).map (fun p => (some p.1, p.2))
  | [], st, _, hi => ⟨st, [], rfl, hi, Ext.refl st, rfl⟩
  | a :: as, st, hf, hi => by
    have ha := hf a (by simp)
    have hf' : ∀ b ∈ as, f b = .ok (g b) := fun b hb => hf b (by simp [hb])
    cases hg : g a with
    | none =>
      obtain ⟨st', l, h1, h2, h3, h4⟩ := actLoop_spec as st hf' hi
      refine ⟨st', l, ?_, h2, h3, ?_⟩
      · rw [actLoop, ha, hg]; exact h1
      · rw [h4, List.filterMap_cons, hg]
    | some p =>
      obtain ⟨k, cost⟩ := p
      obtain ⟨st', l, h1, h2, h3, h4⟩ := actLoop_spec as (st.getState k).1 hf' (getState_inv hi k)
      refine ⟨st', ((st.getState k).2, cost) :: l, ?_, h2, (getState_ext st k).trans h3, ?_⟩
      · rw [actLoop, ha, hg]
        simp only [h1]
      · rw [List.map_cons, h4, List.filterMap_cons, hg, List.map_cons,
          coord_prefix h3.pre (getState_coord hi k)]

/-! ## Histories -/

/-- sizes, threshold and action set never change -/
structure Same (a b : Nav2D) : Prop where
  pre : a.tab.table <+: b.tab.table
  W : b.cfg.W = a.cfg.W
  H : b.cfg.H = a.cfg.H
  obs : b.cfg.obs = a.cfg.obs
  dirs : b.cfg.dirs = a.cfg.dirs

theorem Same.trans {a b c : Nav2D} (h : Same a b) (h' : Same b c) : Same a c :=
  ⟨h.pre.trans h'.pre, h'.W.trans h.W, h'.H.trans h.H, h'.obs.trans h.obs, h'.dirs.trans h.dirs⟩
theorem Ext.same {a b : Nav2D} (h : Ext a b) : Same a b := by
  refine ⟨h.pre, ?_, ?_, ?_, ?_⟩ <;> rw [h.cfg]

theorem actLoop_inv {f : Act → Except EnvErr (Option ((Int × Int) × Nat))} :
    ∀ (as : List Act) (st : Nav2D) {st' l}, TInv hash st.tab → actLoop f as st = .ok (st', l) →
      TInv hash st'.tab ∧ Ext st st'
  | [], st, st', l, hi, h => by cases h; exact ⟨hi, Ext.refl _⟩
  | a :: as, st, st', l, hi, h => by
    rw [actLoop] at h
    split at h
    · cases h
    · exact actLoop_inv as st hi h
    · next k cost _ =>
      split at h
      · cases h
      · next s l' q =>
        cases h
        have := actLoop_inv as _ (getState_inv hi k) q
        exact ⟨this.1, (getState_ext st k).trans this.2⟩

theorem changedNbrs_inv (x y : Int) : ∀ (as : List Act) (st : Nav2D), TInv hash st.tab →
    TInv hash (st.changedNbrs x y as).1.tab ∧ Ext st (st.changedNbrs x y as).1
  | [], st, hi => ⟨hi, Ext.refl st⟩
  | a :: as, st, hi => by
    rw [changedNbrs]
    split
    · exact changedNbrs_inv x y as st hi
    · have := changedNbrs_inv x y as _ (getState_inv hi (x + a.dx, y + a.dy))
      exact ⟨this.1, (getState_ext st _).trans this.2⟩

theorem changedEdges_inv : ∀ (cs : List (Int × Int)) (st : Nav2D), TInv hash st.tab →
    TInv hash (st.changedEdges cs).1.tab ∧ Ext st (st.changedEdges cs).1
  | [], st, hi => ⟨hi, Ext.refl st⟩
  | (x, y) :: cs, st, hi => by
    have h1 := changedNbrs_inv x y (st.getState (x, y)).1.cfg.acts _ (getState_inv hi (x, y))
    have h2 := changedEdges_inv cs _ h1.1
    exact ⟨h2.1, (getState_ext st _).trans (h1.2.trans h2.2)⟩

theorem step_inv {st st' : Nav2D} {op : NavOp} (h : NInv st) (hs : st.step op = some st') :
    NInv st' ∧ Same st st' := by
  cases op with
  | getState x y =>
    cases hs
    have e := getState_ext st (x, y)
    exact ⟨h.ext e (getState_inv h.tab _), e.same⟩
  | getSuccs id =>
    simp only [step] at hs
    split at hs
    · next r q =>
      cases hs
      unfold getSuccs at q
      split at q
      · cases q; exact ⟨h, (Ext.refl _).same⟩
      · split at q
        · cases q
        · have := actLoop_inv (st' := r.1) (l := r.2) _ _ h.tab q
          exact ⟨h.ext this.2 this.1, this.2.same⟩
    · cases hs
  | getPreds id =>
    simp only [step] at hs
    split at hs
    · next r q =>
      cases hs
      unfold getPreds at q
      split at q
      · cases q
      · split at q
        · cases q
        · split at q
          · cases q; exact ⟨h, (Ext.refl _).same⟩
          · have := actLoop_inv (st' := r.1) (l := r.2) _ _ h.tab q
            exact ⟨h.ext this.2 this.1, this.2.same⟩
    · cases hs
  | setStart x y =>
    cases hs
    unfold setStart
    split
    · have e := getState_ext st (x, y)
      refine ⟨⟨getState_inv h.tab _, getState_coord h.tab _, coord_prefix e.pre h.goal⟩, ⟨e.pre, rfl, rfl, rfl, rfl⟩⟩
    · exact ⟨h, (Ext.refl _).same⟩
  | setGoal x y =>
    cases hs
    unfold setGoal
    split
    · have e := getState_ext st (x, y)
      refine ⟨⟨getState_inv h.tab _, coord_prefix e.pre h.start, getState_coord h.tab _⟩, ⟨e.pre, rfl, rfl, rfl, rfl⟩⟩
    · exact ⟨h, (Ext.refl _).same⟩
  | updateCost x y v =>
    simp only [step] at hs
    split at hs
    · next r q =>
      cases hs
      unfold updateCost at q
      split at q
      · cases q
      · cases q; exact ⟨⟨h.tab, h.start, h.goal⟩, ⟨List.prefix_rfl, rfl, rfl, rfl, rfl⟩⟩
    · cases hs
  | changedEdges cs =>
    cases hs
    have := changedEdges_inv cs st h.tab
    exact ⟨h.ext this.2 this.1, this.2.same⟩

theorem run_inv : ∀ (ops : List NavOp) {st st' : Nav2D}, NInv st → st.run ops = some st' → NInv st' ∧ Same st st'
  | [], st, st', h, hr => by cases hr; exact ⟨h, (Ext.refl _).same⟩
  | op :: ops, st, st', h, hr => by
    rw [run] at hr
    split at hr
    · cases hr
    · next st1 q =>
      have h1 := step_inv h q
      have h2 := run_inv ops h1.1 hr
      exact ⟨h2.1, h1.2.trans h2.2⟩

theorem init_inv {W H : Int} {map : Int → Nat} {s g : Int × Int} {obs dirs : Nat} {st : Nav2D}
    (h : init W H map s g obs dirs = .ok st) :
    NInv st ∧ st.cfg = ⟨W, H, obs, fun x y => map (x + y * W), dirs, s, g⟩ := by
  unfold init at h
  split at h
  · cases h
  · split at h
    · cases h
    · cases h
      have h1 := inv_getId (hash := hash) (inv_empty (κ := Int × Int)) s
      refine ⟨⟨inv_getId h1 g, ?_, getId_coord h1 g⟩, rfl⟩
      exact coord_prefix (getId_prefix ..) (getId_coord inv_empty s)

theorem getCoord_ok {st : Nav2D} {id : Nat} {k : Int × Int} : st.getCoord id = .ok k ↔ st.tab.coord id = some k := by
  unfold getCoord
  cases st.tab.coord id <;> simp

theorem getSuccs_spec {st : Nav2D} {id : Nat} {x y : Int} (h : NInv st) (hid : id ≠ st.goalId)
    (hk : st.tab.coord id = some (x, y)) (hin : InMap st.cfg.W st.cfg.H x y) :
    ∃ st' l, st.getSuccs id = .ok (st', l) ∧ TInv hash st'.tab ∧ Ext st st' ∧
      l.map (fun p => (st'.tab.coord p.1, p.2)) =
        (st.cfg.acts.filterMap (st.cfg.succG x y)).map (fun p => (some p.1, p.2)) := by
  unfold getSuccs
  rw [if_neg hid, getCoord_ok.mpr hk]
  exact actLoop_spec _ st (fun a ha => NavCfg.succAct_eq (NavCfg.acts_sub a ha) hin) h.tab

theorem getPreds_spec {st : Nav2D} {id : Nat} {x y : Int} (h : NInv st)
    (hk : st.tab.coord id = some (x, y)) (hin : InMap st.cfg.W st.cfg.H x y) :
    ∃ st' l, st.getPreds id = .ok (st', l) ∧ TInv hash st'.tab ∧ Ext st st' ∧
      l.map (fun p => (st'.tab.coord p.1, p.2)) =
        (if st.cfg.grid x y ≥ st.cfg.obs then [] else
          (st.cfg.acts.filterMap (st.cfg.predG x y)).map (fun p => (some p.1, p.2))) := by
  unfold getPreds
  simp only [getCoord_ok.mpr hk, NavCfg.cell_ok hin]
  by_cases ho : st.cfg.grid x y ≥ st.cfg.obs
  · rw [if_pos ho, if_pos ho]; exact ⟨st, [], rfl, h.tab, Ext.refl st, rfl⟩
  · rw [if_neg ho, if_neg ho]
    exact actLoop_spec _ st (fun a ha => NavCfg.predAct_eq (NavCfg.acts_sub a ha) hin) h.tab

end Nav2D
end Sbpl
