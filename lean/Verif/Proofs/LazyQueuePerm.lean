import Verif.Proofs.LazyQueue
/-! libstdc++'s priority queue: nothing is lost, invented or duplicated. -/

namespace Sbpl.StdHeap
open LazySpec

theorem move_perm {l : List LazyElem} {i j : Nat} {p x : LazyElem} (hj : j < l.length) (ne : i ≠ j) (e : l[i]? = some p) :
    ((l.set j p).set i x).Perm (l.set j x) := by
  obtain ⟨hi, he⟩ := List.getElem?_eq_some_iff.mp e
  rw [List.perm_iff_count]
  intro a
  have c1 : l.count a ≥ (if l[j] == a then 1 else 0) := by
    split
    next h =>
      have : a ∈ l := by rw [← beq_iff_eq.mp h]; exact List.getElem_mem hj
      exact List.count_pos_iff.mpr this
    next => exact Nat.zero_le _
  rw [List.count_set (by rw [List.length_set]; exact hi), List.count_set hj, List.count_set hj, List.getElem_set_ne (Ne.symm ne), he]
  omega

theorem siftUp_perm {f : LazyElem → Nat} {x : LazyElem} : ∀ (fuel hole : Nat) (l : List LazyElem), hole < l.length →
    (siftUp f x fuel hole l).Perm (l.set hole x) := by
  intro fuel
  induction fuel with
  | zero => intro hole l _; exact List.Perm.refl _
  | succ n ih =>
    intro hole l h
    unfold siftUp
    split
    · exact List.Perm.refl _
    next h0 =>
      cases e : l[(hole - 1) / 2]? with
      | none => exact List.Perm.refl _
      | some p =>
        simp only
        split
        · refine (ih ((hole - 1) / 2) (l.set hole p) (by rw [List.length_set]; omega)).trans ?_
          exact move_perm h (by omega) e
        · exact List.Perm.refl _

theorem push_perm (f : LazyElem → Nat) (x : LazyElem) (l : List LazyElem) : (push f x l).Perm (x :: l) := by
  unfold push
  refine (siftUp_perm _ _ _ (by simp)).trans ?_
  rw [List.set_append_right _ _ (Nat.le_refl _)]
  simp only [Nat.sub_self, List.set_cons_zero]
  exact List.perm_append_comm (l₁ := l) (l₂ := [x])

theorem sink_perm {f : LazyElem → Nat} {x : LazyElem} : ∀ (fuel hole : Nat) (l : List LazyElem), hole < l.length →
    ((sinkHole f fuel hole l).2.set (sinkHole f fuel hole l).1 x).Perm (l.set hole x) := by
  intro fuel
  induction fuel with
  | zero => intro hole l _; exact List.Perm.refl _
  | succ n ih =>
    intro hole l h
    unfold sinkHole
    cases e1 : l[2 * hole + 1]? with
    | none => exact List.Perm.refl _
    | some a =>
      have l1 : 2 * hole + 1 < l.length := by
        by_contra c; rw [List.getElem?_eq_none (by omega)] at e1; cases e1
      cases e2 : l[2 * hole + 2]? with
      | none =>
        simp only
        exact move_perm h (by omega) e1
      | some b =>
        have l2 : 2 * hole + 2 < l.length := by
          by_contra c; rw [List.getElem?_eq_none (by omega)] at e2; cases e2
        simp only
        split
        · exact (ih (2 * hole + 1) (l.set hole a) (by rw [List.length_set]; omega)).trans (move_perm h (by omega) e1)
        · exact (ih (2 * hole + 2) (l.set hole b) (by rw [List.length_set]; omega)).trans (move_perm h (by omega) e2)

theorem pop_perm {f : LazyElem → Nat} {l : List LazyElem} {e : LazyElem} {r : List LazyElem} (h : pop f l = some (e, r)) : l.Perm (e :: r) := by
  cases l with
  | nil => simp [pop] at h
  | cons top rest =>
    unfold pop at h
    dsimp only at h
    cases el : rest.getLast? with
    | none =>
      rw [el] at h
      rw [List.getLast?_eq_none_iff] at el
      subst el
      simp only [Option.some.injEq, Prod.mk.injEq] at h
      obtain ⟨rfl, rfl⟩ := h
      exact List.Perm.refl _
    | some x =>
      rw [el] at h
      simp only [Option.some.injEq, Prod.mk.injEq] at h
      obtain ⟨rfl, rfl⟩ := h
      obtain ⟨b1, _⟩ := sink_mem (f := f) (top :: rest).length 0 (top :: rest.dropLast) (by simp)
      have hr : rest = rest.dropLast ++ [x] := by
        have hne : rest ≠ [] := by rintro rfl; simp at el
        rw [List.getLast?_eq_some_getLast hne] at el
        have el := Option.some.inj el
        rw [← el, List.dropLast_concat_getLast]
      refine List.Perm.cons _ ?_
      refine List.Perm.trans ?_ ((siftUp_perm _ _ _ b1).trans (sink_perm _ _ _ (by simp))).symm
      rw [List.set_cons_zero]
      have : rest.Perm (rest.dropLast ++ [x]) := by rw [← hr]
      exact this.trans List.perm_append_comm

end Sbpl.StdHeap
