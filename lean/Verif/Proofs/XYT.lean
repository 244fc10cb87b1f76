import Mathlib.Tactic.Linarith
import Mathlib.Tactic.Ring
import Mathlib.Tactic.SplitIfs
import Verif.Model.XYT
import Verif.Proofs.StateTable
import Verif.Props.Utils
import Verif.Props.Angles
import Verif.Spec.XYT
/-! # `EnvironmentNAVXYTHETALAT`: state store and invariant -/

namespace Sbpl
open StateTable

namespace XCfg
/-- the slot of the store in use -/
def slot (c : XCfg) (k : XKey) : Nat := if c.lookup then (c.index k).toNat else hashBin k

theorem within_iff {c : XCfg} {x y : Int} : c.within x y = true ↔ 0 ≤ x ∧ x < c.W ∧ 0 ≤ y ∧ y < c.H := by
  simp [within]

theorem inRange_iff {c : XCfg} {k : XKey} : c.inRange k = true ↔
    (0 ≤ k.1 ∧ k.1 < c.W ∧ 0 ≤ k.2.1 ∧ k.2.1 < c.H) ∧ 0 ≤ k.2.2 ∧ k.2.2 < c.T := by
  unfold inRange; rw [Bool.and_eq_true, within_iff, decide_eq_true_iff]

theorem index_eq (c : XCfg) (k : XKey) : c.index k = k.2.2 + c.T * (k.1 + c.W * k.2.1) := by unfold index; ring

theorem index_range {c : XCfg} {k : XKey} (h : c.inRange k = true) : 0 ≤ c.index k ∧ c.index k < c.W * c.H * c.T := by
  obtain ⟨⟨h1, h2, h3, h4⟩, h5, h6⟩ := inRange_iff.mp h
  rw [index_eq]
  have hT : (0 : Int) ≤ c.T := by omega
  have hW : 0 ≤ c.W := by omega
  have a : 0 ≤ c.W * k.2.1 := Int.mul_nonneg hW h3
  have b : 0 ≤ (c.T : Int) * (k.1 + c.W * k.2.1) := Int.mul_nonneg hT (by omega)
  refine ⟨by omega, ?_⟩
  have e1 : c.W * k.2.1 ≤ c.W * (c.H - 1) := Int.mul_le_mul_of_nonneg_left (by omega) hW
  have e2 : k.1 + c.W * k.2.1 + 1 ≤ c.W * c.H := by nlinarith
  have e3 : (c.T : Int) * (k.1 + c.W * k.2.1 + 1) ≤ c.T * (c.W * c.H) := Int.mul_le_mul_of_nonneg_left e2 hT
  nlinarith

theorem index_inj {c : XCfg} {k k' : XKey} (h : c.inRange k = true) (h' : c.inRange k' = true) (e : c.index k = c.index k') : k = k' := by
  obtain ⟨⟨h1, h2, h3, h4⟩, h5, h6⟩ := inRange_iff.mp h
  obtain ⟨⟨g1, g2, g3, g4⟩, g5, g6⟩ := inRange_iff.mp h'
  rw [index_eq, index_eq] at e
  have m : ∀ a q T : Int, 0 ≤ a → a < T → (a + T * q) % T = a ∧ (a + T * q) / T = q := by
    intro a q T h0 hl
    constructor
    · rw [Int.add_mul_emod_self_left]; exact Int.emod_eq_of_lt h0 hl
    · rw [Int.add_mul_ediv_left _ _ (by omega), Int.ediv_eq_zero_of_lt h0 hl, Int.zero_add]
  obtain ⟨a1, a2⟩ := m k.2.2 (k.1 + c.W * k.2.1) c.T h5 h6
  obtain ⟨b1, b2⟩ := m k'.2.2 (k'.1 + c.W * k'.2.1) c.T g5 g6
  rw [e] at a1 a2
  have t := a1.symm.trans b1
  have r := a2.symm.trans b2
  obtain ⟨c1, c2⟩ := m k.1 k.2.1 c.W h1 h2
  obtain ⟨d1, d2⟩ := m k'.1 k'.2.1 c.W g1 g2
  rw [r] at c1 c2
  exact Prod.ext (c1.symm.trans d1) (Prod.ext (c2.symm.trans d2) t)

theorem toChar_id {x : Int} (h : -128 ≤ x) (h' : x ≤ 127) : toChar x = x := by unfold toChar; omega

end XCfg

namespace XEnv
open XCfg

/-- invariant of the store, stamps, start and goal -/
structure XInv (st : XEnv) : Prop where
  T128 : st.cfg.T ≤ 128
  tab : TInv st.cfg.slot st.tab
  rng : ∀ e ∈ st.tab.table, st.cfg.inRange e.coord = true
  stamp : ∀ i, st.stamp i ≤ st.iter

theorem find_eq {st : XEnv} (i : XInv st) {k : XKey} (hk : st.cfg.inRange k = true) : st.find k = st.tab.find st.cfg.slot k := by
  unfold XEnv.find StateTable.find
  cases hl : st.cfg.lookup with
  | false => simp [slot, hl, StateTable.find]
  | true =>
    have hs : ∀ k', st.cfg.slot k' = (st.cfg.index k').toNat := by intro k'; simp [slot, hl]
    rw [hs, if_pos rfl, if_pos hk]
    have hall : ∀ e ∈ st.tab.bins (st.cfg.index k).toNat, e.coord = k := by
      intro e he
      obtain ⟨h1, h2⟩ := (i.tab.bins _ _).mp he
      have hr := i.rng e h1
      have r1 := index_range hr
      have r2 := index_range hk
      rw [hs] at h2
      exact index_inj hr hk (by omega)
    cases hb : st.tab.bins (st.cfg.index k).toNat with
    | nil => rfl
    | cons e l =>
      have := hall e (by rw [hb]; simp)
      simp [List.find?_cons, this]

/-- look-up, whatever the coordinates -/
theorem find_iff {st : XEnv} (i : XInv st) {k : XKey} {e : HEntry XKey} : st.find k = some e ↔ e ∈ st.tab.table ∧ e.coord = k := by
  by_cases hk : st.cfg.inRange k = true
  · rw [find_eq i hk]
    constructor
    · exact find_some i.tab
    · rintro ⟨h1, h2⟩
      rw [← h2]; exact find_of_mem i.tab h1
  · constructor
    · intro h
      unfold XEnv.find at h
      cases hl : st.cfg.lookup with
      | true => rw [hl, if_pos rfl, if_neg hk] at h; cases h
      | false =>
        rw [hl] at h
        have t := i.tab
        have hs : st.cfg.slot = hashBin := by funext k'; simp [slot, hl]
        rw [hs] at t
        exact find_some t (by simpa using h)
    · rintro ⟨h1, h2⟩
      have := i.rng e h1
      rw [h2] at this
      exact absurd this hk

/-- the environment grew -/
structure Ext (st st' : XEnv) : Prop where
  cfg : st'.cfg = st.cfg
  iter : st'.iter = st.iter
  startId : st'.startId = st.startId
  goalId : st'.goalId = st.goalId
  needStart : st'.needStart = st.needStart
  needGoal : st'.needGoal = st.needGoal
  pre : st.tab.table <+: st'.tab.table

theorem Ext.refl (st : XEnv) : Ext st st := ⟨rfl, rfl, rfl, rfl, rfl, rfl, List.prefix_refl _⟩
theorem Ext.trans {a b c : XEnv} (h : Ext a b) (h' : Ext b c) : Ext a c :=
  ⟨h'.cfg.trans h.cfg, h'.iter.trans h.iter, h'.startId.trans h.startId, h'.goalId.trans h.goalId, h'.needStart.trans h.needStart,
   h'.needGoal.trans h.needGoal, h.pre.trans h'.pre⟩

theorem getState_ok {st : XEnv} (i : XInv st) {k : XKey} (hk : st.cfg.inRange k = true) :
    ∃ st' id, st.getState k = .ok (st', id) ∧ XInv st' ∧ Ext st st' ∧ st'.tab.coord id = some k ∧
      (st.tab.coord id = some k → st' = st) := by
  unfold getState
  rw [find_eq i hk]
  cases hf : st.tab.find st.cfg.slot k with
  | some e =>
    obtain ⟨h1, h2⟩ := find_some i.tab hf
    refine ⟨st, e.id, rfl, i, Ext.refl _, ?_, fun _ => rfl⟩
    rw [coord_of_mem i.tab h1, h2]
  | none =>
    have hn := find_none i.tab hf
    obtain ⟨-, hT0, hT⟩ := inRange_iff.mp hk
    have hT128 := i.T128
    have hc : toChar k.2.2 = k.2.2 := toChar_id (by omega) (by omega)
    have hkey : (k.1, k.2.1, toChar k.2.2) = k := by rw [hc]
    -- the new table is the one of the generic store
    have key : ∃ st', st.create k = .ok (st', st.tab.table.length) ∧ st'.tab = (st.tab.create st.cfg.slot k).1 ∧ st'.cfg = st.cfg ∧
        st'.iter = st.iter ∧ st'.startId = st.startId ∧ st'.goalId = st.goalId ∧ st'.needStart = st.needStart ∧
        st'.needGoal = st.needGoal ∧ st'.stamp = upd st.stamp st.tab.table.length 0 := by
      unfold XEnv.create
      dsimp only
      rw [hkey]
      cases hl : st.cfg.lookup with
      | false =>
        have hs : st.cfg.slot = hashBin := by funext k'; simp [slot, hl]
        rw [hs]
        refine ⟨{ st with tab := (st.tab.create hashBin k).1, stamp := upd st.stamp st.tab.table.length 0 }, ?_,
          rfl, rfl, rfl, rfl, rfl, rfl, rfl, rfl⟩
        rw [if_neg (by simp)]
      | true =>
        have hs : st.cfg.slot k = (st.cfg.index k).toNat := by simp [slot, hl]
        have hb : st.tab.bins (st.cfg.index k).toNat = [] := by
          rw [List.eq_nil_iff_forall_not_mem]
          intro e he
          rw [← hs] at he
          obtain ⟨h1, h2⟩ := (i.tab.bins _ _).mp he
          have hr := i.rng e h1
          have r1 := index_range hr
          have r2 := index_range hk
          have hs' : st.cfg.slot e.coord = (st.cfg.index e.coord).toNat := by simp [slot, hl]
          rw [hs, hs'] at h2
          exact hn e h1 (index_inj hr hk (by omega))
        refine ⟨{ st with tab := (st.tab.create st.cfg.slot k).1, stamp := upd st.stamp st.tab.table.length 0 }, ?_,
          rfl, rfl, rfl, rfl, rfl, rfl, rfl, rfl⟩
        rw [if_pos rfl, if_pos (index_range hk)]
        unfold StateTable.create
        dsimp only
        rw [hs, hb]
        rfl
    obtain ⟨st', e1, et, ec, ei, es, eg, en1, en2, est⟩ := key
    refine ⟨st', _, e1, ⟨?_, ?_, ?_, ?_⟩, ⟨ec, ei, es, eg, en1, en2, ?_⟩, ?_, ?_⟩
    · rw [ec]; exact i.T128
    · rw [ec, et]; exact inv_create i.tab hn
    · rw [et, ec]
      intro e he
      simp only [StateTable.create, List.mem_append, List.mem_singleton] at he
      rcases he with he | he
      · exact i.rng e he
      · rw [he]; exact hk
    · rw [est, ei]
      intro j
      by_cases hj : j = st.tab.table.length
      · rw [hj, upd_same]; exact Nat.zero_le _
      · rw [upd_other _ _ hj]; exact i.stamp j
    · rw [et]; exact List.prefix_append _ _
    · have t := inv_create i.tab hn
      have := coord_of_mem t (e := ⟨k, st.tab.table.length⟩) (by simp [StateTable.create])
      rw [et]; exact this
    · intro hcc
      have := coord_lt.mp (show st.tab.coord st.tab.table.length ≠ none by rw [hcc]; simp)
      exact absurd this (Nat.lt_irrefl _)

/-- a call that looks up existing coordinates changes nothing -/
theorem getState_of_coord {st : XEnv} (i : XInv st) {k : XKey} {id : Nat} (h : st.tab.coord id = some k) : st.getState k = .ok (st, id) := by
  unfold getState
  obtain ⟨e, h1, h2, h3⟩ := coord_some i.tab h
  rw [(find_iff i).mpr ⟨h1, h2⟩]
  simp [h3]

theorem inRange_of_coord {st : XEnv} (i : XInv st) {k : XKey} {id : Nat} (h : st.tab.coord id = some k) : st.cfg.inRange k = true := by
  obtain ⟨e, h1, h2, h3⟩ := coord_some i.tab h
  rw [← h2]; exact i.rng e h1

/-- the loops over actions -/
theorem actLoop_ok {f : XAct → Option (XKey × Nat)} : ∀ (as : List XAct) (st : XEnv), XInv st →
    (∀ a ∈ as, ∀ r, f a = some r → st.cfg.inRange r.1 = true) →
    ∃ st' l, actLoop f as st = .ok (st', l) ∧ XInv st' ∧ Ext st st' ∧
      l.map (fun e => (st'.tab.coord e.1, e.2.1, e.2.2)) = as.filterMap (fun a => (f a).map (fun r => (some r.1, r.2, a))) := by
  intro as
  induction as with
  | nil => intro st i _; exact ⟨st, [], rfl, i, Ext.refl _, rfl⟩
  | cons a as ih =>
    intro st i hf
    unfold actLoop
    cases ha : f a with
    | none =>
      dsimp only
      obtain ⟨st', l, h1, h2, h3, h4⟩ := ih st i (fun b hb => hf b (by simp [hb]))
      refine ⟨st', l, h1, h2, h3, ?_⟩
      rw [h4, List.filterMap_cons, ha]; rfl
    | some r =>
      obtain ⟨k, c⟩ := r
      dsimp only
      obtain ⟨st1, id, g1, g2, g3, g4, -⟩ := getState_ok i (hf a (by simp) (k, c) ha)
      rw [g1]
      dsimp only
      obtain ⟨st', l, h1, h2, h3, h4⟩ := ih st1 g2 (fun b hb => by rw [g3.cfg]; exact hf b (by simp [hb]))
      rw [h1]
      refine ⟨st', _, rfl, h2, g3.trans h3, ?_⟩
      rw [List.filterMap_cons, ha, List.map_cons, h4]
      simp [coord_prefix h3.pre g4]

end XEnv
end Sbpl
