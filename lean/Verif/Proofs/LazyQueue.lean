import Mathlib.Tactic.Linarith
import Verif.Spec.LazyARA
/-! libstdc++'s binary heap is a priority queue. -/

namespace Sbpl.StdHeap
open LazySpec

/-- value at index `i` -/
def F (f : LazyElem → Nat) (l : List LazyElem) (i : Nat) : Nat := f ((l[i]?).getD ⟨0, 0, false⟩)

theorem F_set {f : LazyElem → Nat} {l : List LazyElem} {j : Nat} (h : j < l.length) (x : LazyElem) (i : Nat) :
    F f (l.set j x) i = if i = j then f x else F f l i := by
  unfold F
  rw [List.getElem?_set]
  by_cases q : j = i
  · subst q; simp [h]
  · rw [if_neg q, if_neg (Ne.symm q)]

theorem F_some {f : LazyElem → Nat} {l : List LazyElem} {i : Nat} {x : LazyElem} (h : l[i]? = some x) : F f l i = f x := by
  simp [F, h]

/-- heap order -/
def Wf (f : LazyElem → Nat) (l : List LazyElem) : Prop := ∀ i, 0 < i → i < l.length → F f l ((i - 1) / 2) ≤ F f l i

/-- heap order with a hole into which `x` may be put -/
structure Hole (f : LazyElem → Nat) (x : LazyElem) (hole : Nat) (l : List LazyElem) : Prop where
  lt : hole < l.length
  away : ∀ i, 0 < i → i < l.length → i ≠ hole → (i - 1) / 2 ≠ hole → F f l ((i - 1) / 2) ≤ F f l i
  grand : ∀ i, 0 < i → i < l.length → (i - 1) / 2 = hole → 0 < hole → F f l ((hole - 1) / 2) ≤ F f l i
  child : ∀ i, 0 < i → i < l.length → (i - 1) / 2 = hole → f x ≤ F f l i

theorem Hole.done {f : LazyElem → Nat} {x : LazyElem} {hole : Nat} {l : List LazyElem} (h : Hole f x hole l)
    (top : 0 < hole → F f l ((hole - 1) / 2) ≤ f x) : Wf f (l.set hole x) := by
  intro i i0 il
  rw [List.length_set] at il
  rw [F_set h.lt, F_set h.lt]
  by_cases q : i = hole
  · subst q
    rw [if_pos rfl, if_neg (by omega)]
    exact top i0
  · rw [if_neg q]
    by_cases p : (i - 1) / 2 = hole
    · rw [if_pos p]; exact h.child i i0 il p
    · rw [if_neg p]; exact h.away i i0 il q p

theorem siftUp_spec {f : LazyElem → Nat} {x : LazyElem} : ∀ (fuel hole : Nat) (l : List LazyElem), hole ≤ fuel → Hole f x hole l →
    Wf f (siftUp f x fuel hole l) := by
  intro fuel
  induction fuel with
  | zero =>
    intro hole l hf h
    exact h.done (by omega)
  | succ n ih =>
    intro hole l hf h
    unfold siftUp
    split
    next h0 => exact h.done (by omega)
    next h0 =>
      have pl : (hole - 1) / 2 < l.length := by have := h.lt; omega
      cases e : l[(hole - 1) / 2]? with
      | none => rw [List.getElem?_eq_none_iff] at e; omega
      | some p =>
        simp only
        have Fp := F_some (f := f) e
        split
        next gt =>
          apply ih _ _ (by omega)
          refine ⟨by rw [List.length_set]; exact pl, ?_, ?_, ?_⟩
          · intro i i0 il q1 q2
            rw [List.length_set] at il
            have ih' : i ≠ hole := by intro c; rw [c] at q2; exact q2 rfl
            rw [F_set h.lt, F_set h.lt, if_neg ih']
            by_cases c : (i - 1) / 2 = hole
            · rw [if_pos c, ← Fp]; exact h.grand i i0 il c (by omega)
            · rw [if_neg c]; exact h.away i i0 il ih' c
          · intro i i0 il q1 q2
            rw [List.length_set] at il
            rw [F_set h.lt, F_set h.lt, if_neg (by omega)]
            have hp : F f l (((hole - 1) / 2 - 1) / 2) ≤ F f l ((hole - 1) / 2) :=
              h.away _ q2 pl (by omega) (by omega)
            by_cases c : i = hole
            · rw [if_pos c, ← Fp]; exact hp
            · rw [if_neg c]
              have := h.away i i0 il c (by omega)
              rw [q1] at this; omega
          · intro i i0 il q1
            rw [List.length_set] at il
            rw [F_set h.lt]
            by_cases c : i = hole
            · rw [if_pos c]; omega
            · rw [if_neg c]
              have := h.away i i0 il c (by omega)
              rw [q1] at this; omega
        next le => exact h.done (fun _ => by omega)

theorem siftUp_len (f : LazyElem → Nat) (x : LazyElem) : ∀ (fuel hole : Nat) (l : List LazyElem), (siftUp f x fuel hole l).length = l.length := by
  intro fuel
  induction fuel with
  | zero => intro hole l; simp [siftUp]
  | succ n ih =>
    intro hole l
    unfold siftUp
    split
    · simp
    · split
      · simp
      · split
        · rw [ih]; simp
        · simp

/-- the elements at other indices than `hole` -/
def Rest (l : List LazyElem) (hole : Nat) (y : LazyElem) : Prop := ∃ i, i ≠ hole ∧ l[i]? = some y

theorem mem_iff {l : List LazyElem} {y : LazyElem} : y ∈ l ↔ ∃ i : Nat, l[i]? = some y := by
  rw [List.mem_iff_getElem?]

theorem mem_set {l : List LazyElem} {hole : Nat} {x y : LazyElem} (h : hole < l.length) : y ∈ l.set hole x ↔ y = x ∨ Rest l hole y := by
  rw [mem_iff]
  constructor
  · rintro ⟨i, e⟩
    rw [List.getElem?_set] at e
    by_cases q : hole = i
    · rw [if_pos q, if_pos (by omega)] at e
      exact .inl (Option.some.inj e).symm
    · rw [if_neg q] at e; exact .inr ⟨i, Ne.symm q, e⟩
  · rintro (rfl | ⟨i, q, e⟩)
    · exact ⟨hole, by rw [List.getElem?_set]; simp [h]⟩
    · exact ⟨i, by rw [List.getElem?_set, if_neg (Ne.symm q)]; exact e⟩

theorem rest_move {l : List LazyElem} {hole j : Nat} {p y : LazyElem} (h : hole < l.length) (ne : j ≠ hole) (e : l[j]? = some p) :
    Rest (l.set hole p) j y ↔ Rest l hole y := by
  constructor
  · rintro ⟨i, q, e'⟩
    rw [List.getElem?_set] at e'
    by_cases c : hole = i
    · rw [if_pos c, if_pos (by omega)] at e'
      cases e'
      exact ⟨j, ne, e⟩
    · rw [if_neg c] at e'; exact ⟨i, Ne.symm c, e'⟩
  · rintro ⟨i, q, e'⟩
    by_cases c : i = j
    · subst c
      rw [e] at e'; cases e'
      exact ⟨hole, Ne.symm ne, by rw [List.getElem?_set]; simp [h]⟩
    · exact ⟨i, c, by rw [List.getElem?_set, if_neg (Ne.symm q)]; exact e'⟩

theorem siftUp_mem {f : LazyElem → Nat} {x y : LazyElem} : ∀ (fuel hole : Nat) (l : List LazyElem), hole < l.length →
    (y ∈ siftUp f x fuel hole l ↔ y = x ∨ Rest l hole y) := by
  intro fuel
  induction fuel with
  | zero => intro hole l h; exact mem_set h
  | succ n ih =>
    intro hole l h
    unfold siftUp
    split
    next => exact mem_set h
    next h0 =>
      cases e : l[(hole - 1) / 2]? with
      | none => exact mem_set h
      | some p =>
        simp only
        split
        · rw [ih _ _ (by rw [List.length_set]; omega), rest_move h (by omega) e]
        · exact mem_set h

theorem push_wf {f : LazyElem → Nat} {l : List LazyElem} (x : LazyElem) (w : Wf f l) : Wf f (push f x l) := by
  unfold push
  apply siftUp_spec _ _ _ (Nat.le_refl _)
  have hF : ∀ i, i < l.length → F f (l ++ [x]) i = F f l i := by
    intro i hi
    unfold F
    rw [List.getElem?_append_left hi]
  refine ⟨by simp, ?_, ?_, ?_⟩
  · intro i i0 il q1 q2
    rw [List.length_append, List.length_singleton] at il
    rw [hF _ (by omega), hF _ (by omega)]
    exact w i i0 (by omega)
  · intro i i0 il q
    rw [List.length_append, List.length_singleton] at il
    omega
  · intro i i0 il q
    rw [List.length_append, List.length_singleton] at il
    omega

theorem push_mem {f : LazyElem → Nat} {l : List LazyElem} {x y : LazyElem} : y ∈ push f x l ↔ y = x ∨ y ∈ l := by
  unfold push
  rw [siftUp_mem _ _ _ (by simp)]
  have : Rest (l ++ [x]) l.length y ↔ y ∈ l := by
    rw [mem_iff]
    constructor
    · rintro ⟨i, q, e⟩
      rw [List.getElem?_append] at e
      split at e
      · exact ⟨i, e⟩
      · next h =>
        exfalso
        rw [show i - l.length = (i - l.length - 1) + 1 by omega] at e
        simp at e
    · rintro ⟨i, e⟩
      have hi : i < l.length := by
        by_contra c
        rw [List.getElem?_eq_none (by omega)] at e; cases e
      exact ⟨i, by omega, by rw [List.getElem?_append_left hi]; exact e⟩
  rw [this]

/-- heap order with a hole into which anything large enough may be put once it reached the bottom -/
structure Gap (f : LazyElem → Nat) (hole : Nat) (l : List LazyElem) : Prop where
  lt : hole < l.length
  away : ∀ i, 0 < i → i < l.length → i ≠ hole → (i - 1) / 2 ≠ hole → F f l ((i - 1) / 2) ≤ F f l i
  grand : ∀ i, 0 < i → i < l.length → (i - 1) / 2 = hole → 0 < hole → F f l ((hole - 1) / 2) ≤ F f l i

/-- moving a smallest child `j` of the hole up -/
theorem Gap.move {f : LazyElem → Nat} {hole j : Nat} {l : List LazyElem} {p : LazyElem} (h : Gap f hole l) (e : l[j]? = some p) (j0 : 0 < j)
    (hj : (j - 1) / 2 = hole) (mn : ∀ i, 0 < i → i < l.length → (i - 1) / 2 = hole → f p ≤ F f l i) : Gap f j (l.set hole p) := by
  have jl : j < l.length := by
    by_contra c; rw [List.getElem?_eq_none (by omega)] at e; cases e
  have Fp := F_some (f := f) e
  have jh : j ≠ hole := by omega
  refine ⟨by rw [List.length_set]; exact jl, ?_, ?_⟩
  · intro i i0 il q1 q2
    rw [List.length_set] at il
    rw [F_set h.lt, F_set h.lt]
    by_cases c : i = hole
    · rw [if_pos c, if_neg (by omega), c, ← Fp]
      exact h.grand j j0 jl hj (by omega)
    · rw [if_neg c]
      by_cases d : (i - 1) / 2 = hole
      · rw [if_pos d]; exact mn i i0 il d
      · rw [if_neg d]; exact h.away i i0 il c d
  · intro i i0 il q1 _
    rw [List.length_set] at il
    rw [F_set h.lt, F_set h.lt, if_pos hj, if_neg (by omega)]
    have := h.away i i0 il (by omega) (by omega)
    rw [q1, Fp] at this; exact this

theorem sink_spec {f : LazyElem → Nat} : ∀ (fuel hole : Nat) (l : List LazyElem), l.length ≤ hole + fuel → Gap f hole l →
    Gap f (sinkHole f fuel hole l).1 (sinkHole f fuel hole l).2 ∧ (sinkHole f fuel hole l).2.length = l.length ∧
    l.length ≤ 2 * (sinkHole f fuel hole l).1 + 1 ∧ (∀ y, Rest (sinkHole f fuel hole l).2 (sinkHole f fuel hole l).1 y ↔ Rest l hole y) := by
  intro fuel
  induction fuel with
  | zero =>
    intro hole l hf h
    have := h.lt; omega
  | succ n ih =>
    intro hole l hf h
    unfold sinkHole
    cases e1 : l[2 * hole + 1]? with
    | none =>
      rw [List.getElem?_eq_none_iff] at e1
      exact ⟨h, rfl, by simpa using e1, fun _ => Iff.rfl⟩
    | some a =>
      have l1 : 2 * hole + 1 < l.length := by
        by_contra c; rw [List.getElem?_eq_none (by omega)] at e1; cases e1
      have Fa := F_some (f := f) e1
      cases e2 : l[2 * hole + 2]? with
      | none =>
        rw [List.getElem?_eq_none_iff] at e2
        simp only
        refine ⟨h.move e1 (by omega) (by omega) ?_, by simp, by omega, fun y => rest_move h.lt (by omega) e1⟩
        intro i i0 il hi
        have : i = 2 * hole + 1 := by omega
        subst this; omega
      | some b =>
        have Fb := F_some (f := f) e2
        simp only
        split
        next gt =>
          have g := h.move e1 (by omega) (by omega) (by
            intro i i0 il hi
            have : i = 2 * hole + 1 ∨ i = 2 * hole + 2 := by omega
            rcases this with rfl | rfl <;> omega)
          obtain ⟨b1, b2, b3, b4⟩ := ih _ _ (by rw [List.length_set]; omega) g
          rw [List.length_set] at b2 b3
          exact ⟨b1, b2, b3, fun y => (b4 y).trans (rest_move h.lt (by omega) e1)⟩
        next le =>
          have g := h.move e2 (by omega) (by omega) (by
            intro i i0 il hi
            have : i = 2 * hole + 1 ∨ i = 2 * hole + 2 := by omega
            rcases this with rfl | rfl <;> omega)
          obtain ⟨b1, b2, b3, b4⟩ := ih _ _ (by rw [List.length_set]; omega) g
          rw [List.length_set] at b2 b3
          exact ⟨b1, b2, b3, fun y => (b4 y).trans (rest_move h.lt (by omega) e2)⟩

theorem sink_mem {f : LazyElem → Nat} : ∀ (fuel hole : Nat) (l : List LazyElem), hole < l.length →
    (sinkHole f fuel hole l).1 < (sinkHole f fuel hole l).2.length ∧
    (∀ y, Rest (sinkHole f fuel hole l).2 (sinkHole f fuel hole l).1 y ↔ Rest l hole y) := by
  intro fuel
  induction fuel with
  | zero => intro hole l h; exact ⟨h, fun _ => Iff.rfl⟩
  | succ n ih =>
    intro hole l h
    unfold sinkHole
    cases e1 : l[2 * hole + 1]? with
    | none => exact ⟨h, fun _ => Iff.rfl⟩
    | some a =>
      have l1 : 2 * hole + 1 < l.length := by
        by_contra c; rw [List.getElem?_eq_none (by omega)] at e1; cases e1
      cases e2 : l[2 * hole + 2]? with
      | none =>
        simp only
        exact ⟨by rw [List.length_set]; exact l1, fun y => rest_move h (by omega) e1⟩
      | some b =>
        have l2 : 2 * hole + 2 < l.length := by
          by_contra c; rw [List.getElem?_eq_none (by omega)] at e2; cases e2
        simp only
        split
        · obtain ⟨b1, b2⟩ := ih (2 * hole + 1) (l.set hole a) (by rw [List.length_set]; omega)
          exact ⟨b1, fun y => (b2 y).trans (rest_move h (by omega) e1)⟩
        · obtain ⟨b1, b2⟩ := ih (2 * hole + 2) (l.set hole b) (by rw [List.length_set]; omega)
          exact ⟨b1, fun y => (b2 y).trans (rest_move h (by omega) e2)⟩

theorem rest_zero {top : LazyElem} {l : List LazyElem} {y : LazyElem} : Rest (top :: l) 0 y ↔ y ∈ l := by
  rw [mem_iff]
  constructor
  · rintro ⟨i, q, e⟩
    obtain ⟨j, rfl⟩ := Nat.exists_eq_succ_of_ne_zero q
    exact ⟨j, by simpa using e⟩
  · rintro ⟨i, e⟩
    exact ⟨i + 1, by omega, by simpa using e⟩

theorem pop_mem {f : LazyElem → Nat} {l : List LazyElem} {e : LazyElem} {r : List LazyElem} (h : pop f l = some (e, r)) (y : LazyElem) :
    y ∈ l ↔ y = e ∨ y ∈ r := by
  cases l with
  | nil => simp [pop] at h
  | cons top rest =>
    unfold pop at h
    dsimp only at h
    cases el : rest.getLast? with
    | none =>
      rw [el] at h
      rw [List.getLast?_eq_none_iff] at el
      subst el
      simp only [Option.some.injEq, Prod.mk.injEq] at h
      obtain ⟨rfl, rfl⟩ := h
      simp
    | some x =>
      rw [el] at h
      simp only [Option.some.injEq, Prod.mk.injEq] at h
      obtain ⟨rfl, rfl⟩ := h
      obtain ⟨b1, b2⟩ := sink_mem (f := f) (top :: rest).length 0 (top :: rest.dropLast) (by simp)
      rw [siftUp_mem _ _ _ b1, b2, rest_zero, List.mem_cons]
      have : rest = rest.dropLast ++ [x] := by
        have hne : rest ≠ [] := by rintro rfl; simp at el
        rw [List.getLast?_eq_some_getLast hne] at el
        have el := Option.some.inj el
        rw [← el, List.dropLast_concat_getLast hne]
      constructor
      · rintro (h | h)
        · exact .inl h
        · rw [this, List.mem_append, List.mem_singleton] at h
          rcases h with h | h
          · exact .inr (.inr h)
          · exact .inr (.inl h)
      · rintro (h | h | h)
        · exact .inl h
        · right; rw [this, List.mem_append, List.mem_singleton]; exact .inr h
        · right; rw [this, List.mem_append]; exact .inl h

theorem wf_min {f : LazyElem → Nat} {l : List LazyElem} (w : Wf f l) : ∀ i, i < l.length → F f l 0 ≤ F f l i := by
  intro i
  induction i using Nat.strongRecOn with
  | _ i ih =>
    intro hi
    by_cases h0 : i = 0
    · subst h0; exact Nat.le_refl _
    · exact Nat.le_trans (ih ((i - 1) / 2) (by omega) (by omega)) (w i (by omega) hi)

theorem pop_min {f : LazyElem → Nat} {l : List LazyElem} {e : LazyElem} {r : List LazyElem} (w : Wf f l) (h : pop f l = some (e, r)) :
    ∀ x ∈ l, f e ≤ f x := by
  have h0 : l[0]? = some e := by
    cases l with
    | nil => simp [pop] at h
    | cons top rest =>
      unfold pop at h
      dsimp only at h
      cases el : rest.getLast? with
      | none =>
        rw [el] at h
        simp only [Option.some.injEq, Prod.mk.injEq] at h
        simp [h.1]
      | some x =>
        rw [el] at h
        simp only [Option.some.injEq, Prod.mk.injEq] at h
        simp [h.1]
  intro x hx
  obtain ⟨i, ei⟩ := mem_iff.mp hx
  have hi : i < l.length := by
    by_contra c; rw [List.getElem?_eq_none (by omega)] at ei; cases ei
  have := wf_min w i hi
  rw [F_some h0, F_some ei] at this
  exact this

theorem pop_wf {f : LazyElem → Nat} {l : List LazyElem} {e : LazyElem} {r : List LazyElem} (w : Wf f l) (h : pop f l = some (e, r)) : Wf f r := by
  cases l with
  | nil => simp [pop] at h
  | cons top rest =>
    unfold pop at h
    dsimp only at h
    cases el : rest.getLast? with
    | none =>
      rw [el] at h
      simp only [Option.some.injEq, Prod.mk.injEq] at h
      obtain ⟨_, rfl⟩ := h
      intro i _ hi; simp at hi
    | some x =>
      rw [el] at h
      simp only [Option.some.injEq, Prod.mk.injEq] at h
      obtain ⟨_, rfl⟩ := h
      have hne : rest ≠ [] := by rintro rfl; simp at el
      have hF : ∀ i, i < (top :: rest.dropLast).length → F f (top :: rest.dropLast) i = F f (top :: rest) i := by
        intro i hi
        unfold F
        cases i with
        | zero => simp
        | succ i =>
          simp only [List.length_cons, List.length_dropLast] at hi
          simp only [List.getElem?_cons_succ]
          rw [List.getElem?_dropLast, if_pos (by omega)]
      have len : (top :: rest.dropLast).length + 1 = (top :: rest).length := by
        simp only [List.length_cons, List.length_dropLast]
        have := List.length_pos_iff.mpr hne
        omega
      have g : Gap f 0 (top :: rest.dropLast) := by
        refine ⟨by simp, ?_, ?_⟩
        · intro i i0 il _ _
          rw [hF _ il, hF _ (by omega)]
          exact w i i0 (by omega)
        · intro i _ _ _ h; omega
      obtain ⟨b1, b2, b3, _⟩ := sink_spec (f := f) (top :: rest).length 0 (top :: rest.dropLast) (by omega) g
      apply siftUp_spec _ _ _ (Nat.le_refl _)
      refine ⟨b1.lt, b1.away, b1.grand, ?_⟩
      intro i i0 il hi
      rw [b2] at il
      omega

theorem ok : QueueOk stdQueue Wf where
  nil := by intro f i _ hi; simp at hi
  congr := by
    intro f f' l h w i i0 il
    have hF : ∀ j, j < l.length → F f' l j = F f l j := by
      intro j hj
      unfold F
      rw [List.getElem?_eq_getElem hj]
      exact (h _ (List.getElem_mem hj)).symm
    rw [hF _ il, hF _ (by omega)]
    exact w i i0 il
  pushWf := fun _ e _ w => push_wf e w
  popWf := fun _ _ _ _ w h => pop_wf w h
  popMin := fun _ _ _ _ w h => pop_min w h
  pushMem := fun _ _ _ _ => push_mem
  popNone := by
    intro f l
    cases l with
    | nil => simp [stdQueue, pop]
    | cons a r =>
      simp only [stdQueue, pop]
      cases r.getLast? <;> simp
  popMem := fun _ _ _ _ h => pop_mem h

end Sbpl.StdHeap
