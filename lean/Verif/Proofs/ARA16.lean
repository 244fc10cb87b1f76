import Mathlib.Tactic.SplitIfs
import Verif.Model.ARA16
/-!
# The two counters never decrease by surprise: which functions touch them, and the agreement of the
16-bit planner with the idealised one as long as neither counter wraps around
-/

namespace Sbpl
namespace ARA

/-- both counters unchanged -/
def CI (a b : ARA) : Prop := b.call = a.call ∧ b.iter = a.iter

theorem CI.refl (a : ARA) : CI a a := ⟨rfl, rfl⟩
theorem CI.trans {a b c : ARA} (x : CI a b) (y : CI b c) : CI a c := ⟨y.1.trans x.1, y.2.trans x.2⟩

theorem ci_touch (st : ARA) (s : Nat) : CI st (st.touch s) := by
  unfold touch; split
  · exact ⟨rfl, rfl⟩
  · exact CI.refl _

theorem ci_reinsert {st st' : ARA} {t : Nat} (h : st.reinsert t = .ok st') : CI st st' := by
  unfold reinsert at h
  split at h
  · split at h
    · split at h
      · cases h; exact ⟨rfl, rfl⟩
      · cases h
    · split at h
      · cases h; exact ⟨rfl, rfl⟩
      · cases h
  · split at h
    · split at h
      · cases h; exact ⟨rfl, rfl⟩
      · cases h
    · cases h; exact CI.refl _

theorem ci_updateOne {st st' : ARA} {s t c : Nat} (h : st.updateOne s t c = .ok st') : CI st st' := by
  unfold updateOne at h
  simp only at h
  split at h
  · have q := ci_reinsert h
    exact (ci_touch st t).trans ⟨q.1, q.2⟩
  · cases h; exact ci_touch st t

theorem ci_updateAll {s : Nat} : ∀ (es : List (Nat × Nat)) {st st' : ARA}, st.updateAll s es = .ok st' → CI st st'
  | [], st, st', h => by unfold updateAll at h; cases h; exact CI.refl _
  | (t, c) :: es, st, st', h => by
    unfold updateAll at h
    split at h
    · cases h
    · rename_i h1; exact (ci_updateOne h1).trans (ci_updateAll es h)

theorem ci_expand {st st' : ARA} {s : Nat} (h : st.expand = .ok (s, st')) : CI st st' := by
  unfold expand at h
  split at h
  · cases h
  · simp only at h
    split at h
    · cases h
    · rename_i h1; cases h
      have q := ci_updateAll _ h1
      exact ⟨q.1, q.2⟩

theorem ci_improveLoop {gl : Nat} : ∀ (b : Nat) {st st' : ARA} {tr : List Nat}, improveLoop gl b st = .ok (tr, st') → CI st st'
  | 0, st, st', tr, h => by unfold improveLoop at h; cases h; exact CI.refl _
  | b + 1, st, st', tr, h => by
    unfold improveLoop at h
    split at h
    · split at h
      · cases h
      · rename_i h1
        split at h
        · cases h
        · rename_i h2; cases h
          exact (ci_expand h1).trans (ci_improveLoop b h2)
    · cases h; exact CI.refl _

theorem ci_improvePath {st st' : ARA} {b r : Nat} {tr : List Nat} (h : st.improvePath b = .ok (st', r, tr)) : CI st st' := by
  unfold improvePath at h
  split at h
  · cases h
  · split at h
    · cases h
    · rename_i h1; cases h
      exact (ci_touch _ _).trans (ci_improveLoop _ h1)

theorem ci_buildLoop : ∀ (f : Nat) {st st' : ARA}, buildLoop f st = .ok st' → CI st st'
  | 0, st, st', h => by unfold buildLoop at h; cases h; exact CI.refl _
  | f + 1, st, st', h => by
    unfold buildLoop at h
    split at h
    · cases h
    · cases h; exact CI.refl _
    · split at h
      · cases h
      · split at h
        · cases h
        · have q := ci_buildLoop f h
          exact ⟨q.1, q.2⟩

theorem ci_decrease (st : ARA) : CI st st.decrease := by
  unfold decrease; split
  · exact ⟨rfl, rfl⟩
  · exact CI.refl _

theorem ci_reconstruct {s0 : Nat} : ∀ (f : Nat) {st : ARA} {s : Nat} {r : ARA}, reconstruct s0 f st s = .ok (some r) → CI st r
  | 0, st, s, r, h => by unfold reconstruct at h; cases h
  | f + 1, st, s, r, h => by
    unfold reconstruct at h
    split at h
    · cases h; exact CI.refl _
    · split at h
      · cases h
      · split at h
        · cases h
        · simp only at h
          split at h
          · cases h
          · have q := ci_reconstruct f h
            exact ⟨q.1, q.2⟩

theorem ci_getSearchPath {st st' : ARA} {f s0 gl c : Nat} {p : List Nat} (h : st.getSearchPath f s0 gl = .ok (st', p, c)) :
    CI st st' := by
  unfold getSearchPath at h
  split at h
  · split at h
    · cases h
    · rename_i r h1
      simp only at h
      split at h
      · cases h
      · cases h
        cases r with
        | none => exact CI.refl _
        | some r => exact ci_reconstruct _ h1
  · split at h
    · cases h
    · cases h; exact CI.refl _

theorem newIteration16_eq {st : ARA} (h : st.iter + 1 < U16) : st.newIteration16 = st.newIteration := by
  unfold newIteration16 newIteration
  rw [Nat.mod_eq_of_lt h]

theorem newIteration_count {st st' : ARA} (h : st.newIteration = .ok st') : st'.call = st.call ∧ st'.iter ≤ st.iter + 1 := by
  unfold newIteration at h
  split at h
  · have := ci_buildLoop _ h
    exact ⟨this.1, Nat.le_of_eq this.2⟩
  · cases h; exact ⟨rfl, Nat.le_succ _⟩

theorem searchIter16_eq {st : ARA} {b : Nat} (h : st.iter + 1 < U16) : st.searchIter16 b = st.searchIter b := by
  unfold searchIter16 searchIter
  rw [newIteration16_eq (by rw [(ci_decrease st).2]; exact h)]
  split
  · rename_i h1; rw [h1]
  · rename_i h1; rw [h1]; rfl

theorem searchIter_count {st st' : ARA} {b r : Nat} {tr : List Nat} (h : st.searchIter b = .ok (st', r, tr)) :
    st'.call = st.call ∧ st'.iter ≤ st.iter + 1 := by
  unfold searchIter at h
  split at h
  · cases h
  · rename_i st1 h1
    have c1 := newIteration_count h1
    rw [(ci_decrease st).1, (ci_decrease st).2] at c1
    simp only at h
    split at h
    · cases h
    · rename_i st3 ret tr3 h2
      have c2 := ci_improvePath h2
      have c12 : CI st1 (if st1.bReeval then st1.reevalF else st1) := by
        split
        · exact ⟨rfl, rfl⟩
        · exact CI.refl _
      have c3 := c12.trans c2
      cases h
      split
      · exact ⟨c3.1.trans c1.1, by show st3.iter ≤ _; rw [c3.2]; exact c1.2⟩
      · exact ⟨c3.1.trans c1.1, by rw [c3.2]; exact c1.2⟩

theorem searchLoop16_eq {gl : Nat} : ∀ (bs : List Nat) {st : ARA}, st.iter + bs.length < U16 →
    searchLoop16 gl bs st = searchLoop gl bs st
  | [], st, _ => by unfold searchLoop16 searchLoop; rfl
  | b :: bs, st, h => by
    simp only [List.length_cons] at h
    unfold searchLoop16 searchLoop
    rw [searchIter16_eq (by omega)]
    by_cases nd : st.notDone = true
    · rw [if_pos nd, if_pos nd]
      rcases h1 : st.searchIter b with e | ⟨st1, r, tr⟩
      · rfl
      · have c := (searchIter_count h1).2
        simp only
        rw [searchLoop16_eq bs (by omega)]
        rfl
    · rw [if_neg nd, if_neg nd]

theorem searchLoop_count {gl : Nat} : ∀ (bs : List Nat) {st st' : ARA} {trs : List (List Nat)}, searchLoop gl bs st = .ok (st', trs) →
    st'.call = st.call ∧ st'.iter ≤ st.iter + bs.length
  | [], st, st', trs, h => by unfold searchLoop at h; cases h; exact ⟨rfl, Nat.le_refl _⟩
  | b :: bs, st, st', trs, h => by
    unfold searchLoop at h
    simp only [List.length_cons]
    split at h
    · split at h
      · cases h
      · rename_i h1
        have c := searchIter_count h1
        split at h
        · cases h; exact ⟨c.1, by omega⟩
        · split at h
          · cases h; exact ⟨c.1, by omega⟩
          · split at h
            · cases h
            · rename_i h2
              have c2 := searchLoop_count bs h2
              cases h; exact ⟨c2.1.trans c.1, by omega⟩
    · cases h; exact ⟨rfl, by omega⟩

theorem reinitFrom16_eq {st : ARA} {s0 gl : Nat} (h : st.call + 1 < U16) : st.reinitFrom16 s0 gl = st.reinitFrom s0 gl := by
  unfold reinitFrom16 reinitFrom
  rw [Nat.mod_eq_of_lt h]
  split
  · rename_i h1; rw [h1]
  · rename_i h1; rw [h1]; rfl

theorem reinitFrom_count {st st' : ARA} {s0 gl : Nat} (h : st.reinitFrom s0 gl = .ok st') :
    st'.call = st.call + 1 ∧ st'.iter = 0 := by
  unfold reinitFrom at h
  split at h
  · cases h
  · rename_i l h1
    simp only at h
    split at h
    · cases h
    · cases h
      have a := fun x : ARA => ci_touch x gl
      have b := fun x : ARA => ci_touch x s0
      refine ⟨(a _).1.trans ?_, (a _).2.trans ?_⟩
      · exact (b _).1.trans rfl
      · exact (b _).2.trans rfl

theorem searchProlog16_eq {st : ARA} {gl : Nat} (h : st.call + 1 < U16) : st.searchProlog16 gl = st.searchProlog gl := by
  have key : ∀ x : ARA, x.call = st.call →
      (if x.bReinit then x.reinitSpace16 else .ok x) = (if x.bReinit then x.reinitSpace else .ok x) := by
    intro x hx
    split
    · unfold reinitSpace16 reinitSpace
      split
      · rename_i q; rw [q]
      · rename_i q1 q2; rw [q1, q2]
      · rename_i q1 q2; rw [q1, q2]; exact reinitFrom16_eq (by rw [hx]; exact h)
    · rfl
  unfold searchProlog16 searchProlog
  split
  · exact key (st.reevalH gl) rfl
  · exact key st rfl

theorem searchProlog_count {st st' : ARA} {gl : Nat} (h : st.searchProlog gl = .ok st') :
    st'.call ≤ st.call + 1 ∧ st'.iter ≤ st.iter := by
  have key : ∀ x : ARA, CI st x → (if x.bReinit then x.reinitSpace else .ok x) = .ok st' →
      st'.call ≤ st.call + 1 ∧ st'.iter ≤ st.iter := by
    intro x hx h
    split at h
    · unfold reinitSpace at h
      split at h
      · cases h
      · cases h
      · have := reinitFrom_count h
        rw [hx.1] at this
        exact ⟨Nat.le_of_eq this.1, by omega⟩
    · cases h; exact ⟨by rw [hx.1]; omega, by rw [hx.2]; exact Nat.le_refl _⟩
  unfold searchProlog at h
  simp only at h
  refine key _ ?_ h
  split
  · exact ⟨rfl, rfl⟩
  · exact CI.refl _

theorem replan16_eq {st : ARA} {bs : List Nat} (h1 : st.call + 1 < U16) (h2 : st.iter + bs.length < U16) :
    st.replan16 bs = st.replan bs := by
  unfold replan16 replan
  split
  · rename_i q; rw [q]
  · rename_i q1 q2; rw [q1, q2]
  · rename_i s0 gl q1 q2
    rw [q1, q2]
    simp only
    rw [searchProlog16_eq h1]
    rcases h : st.searchProlog gl with e | st1
    · rfl
    · have c := searchProlog_count h
      simp only
      rw [searchLoop16_eq bs (by omega)]
      rfl

theorem replan_count {st st' : ARA} {bs : List Nat} {r : Result} (h : st.replan bs = .ok (st', r)) :
    st'.call ≤ st.call + 1 ∧ st'.iter ≤ st.iter + bs.length := by
  unfold replan at h
  split at h
  · cases h
  · cases h
  · split at h
    · cases h
    · rename_i st1 h1
      have c1 := searchProlog_count h1
      split at h
      · cases h
      · rename_i st2 trs h2
        have c2 := searchLoop_count _ h2
        split at h
        · cases h; omega
        · split at h
          · cases h
          · rename_i h3
            have c3 := ci_getSearchPath h3
            cases h; rw [c3.1, c3.2]; omega

end ARA
end Sbpl
