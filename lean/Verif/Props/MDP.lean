import Verif.Spec.MDP
import Mathlib.Tactic.SplitIfs
import Mathlib.Tactic.Linarith
import Mathlib.Data.List.Nodup
/-! # C24, C25: PathExists, predecessor lists, outcome look-ups -/

namespace Sbpl.MDPProps
open Sbpl MDP MDPSpec

/-! ## C25 -/

theorem posOf_some {p : Int} {l : List Int} {i j : Nat} (h : posOf p l i = some j) :
    ∃ k, j = i + k ∧ l[k]? = some p := by
  induction l generalizing i with
  | nil => simp [posOf] at h
  | cons x xs ih =>
    unfold posOf at h
    split_ifs at h with hx
    · cases h; exact ⟨0, by omega, by simp [hx]⟩
    · obtain ⟨k, e, hk⟩ := ih h
      exact ⟨k + 1, by omega, by simpa using hk⟩

theorem posOf_none {p : Int} {l : List Int} {i : Nat} (h : posOf p l i = none) : p ∉ l := by
  induction l generalizing i with
  | nil => simp
  | cons x xs ih =>
    unfold posOf at h
    split_ifs at h with hx
    simp only [List.mem_cons, not_or]
    exact ⟨fun e => hx e.symm, ih h⟩

/-- removing by overwriting with the last entry -/
theorem swapRemove {l : List Int} {k : Nat} {p : Int} (hk : l[k]? = some p) (hnd : l.Nodup) :
    ((l.set k (l.getLastD 0)).dropLast).Nodup ∧ ∀ x, x ∈ (l.set k (l.getLastD 0)).dropLast ↔ (x ≠ p ∧ x ∈ l) := by
  rcases List.eq_nil_or_concat l with rfl | ⟨init, z, rfl⟩
  · simp at hk
  have hlast : (init ++ [z]).getLastD 0 = z := by simp [List.getLastD_eq_getLast?]
  rw [List.concat_eq_append] at *
  rw [hlast]
  have hz : z ∉ init := by
    intro h
    have := List.nodup_append.mp hnd
    exact this.2.2 z h z (by simp) rfl
  have hni : init.Nodup := (List.nodup_append.mp hnd).1
  by_cases hkl : k < init.length
  · have hp : init[k] = p := by
      rw [List.getElem?_append_left hkl, List.getElem?_eq_getElem hkl] at hk
      simpa using hk
    rw [List.set_append_left _ _ hkl, List.dropLast_concat]
    have hpz : p ≠ z := by rintro rfl; exact hz (hp ▸ List.getElem_mem hkl)
    have hset : init.set k z = init.take k ++ z :: init.drop (k + 1) := by
      rw [List.set_eq_take_append_cons_drop, if_pos hkl]
    have hsplit : init = init.take k ++ p :: init.drop (k + 1) := by
      conv_lhs => rw [← List.take_append_drop k init, List.drop_eq_getElem_cons hkl, hp]
    have hnd' := hni
    rw [hsplit] at hnd' hz
    rw [List.nodup_middle] at hnd'
    have hpn := List.nodup_cons.mp hnd'
    constructor
    · rw [hset, List.nodup_middle, List.nodup_cons]
      refine ⟨?_, hpn.2⟩
      intro h
      apply hz
      rcases List.mem_append.mp h with h | h
      · simp [h]
      · simp [h]
    · intro x
      rw [hset]
      have : x ∈ init ++ [z] ↔ x ∈ (init.take k ++ p :: init.drop (k + 1)) ∨ x = z := by
        conv_lhs => rw [hsplit]
        simp only [List.mem_append, List.mem_cons, List.not_mem_nil, or_false]
      rw [this]
      simp only [List.mem_append, List.mem_cons]
      constructor
      · rintro (h | rfl | h)
        · exact ⟨fun e => hpn.1 (by simp [← e, h]), Or.inl (Or.inl h)⟩
        · exact ⟨fun e => hpz e.symm, Or.inr rfl⟩
        · exact ⟨fun e => hpn.1 (by simp [← e, h]), Or.inl (Or.inr (Or.inr h))⟩
      · rintro ⟨h1, (h | h | h) | h⟩
        · exact Or.inl h
        · exact absurd h h1
        · exact Or.inr (Or.inr h)
        · exact Or.inr (Or.inl h)
  · have hkl' : k = init.length := by
      have := (List.getElem?_eq_some_iff.mp hk).1
      simp at this; omega
    subst hkl'
    have hp : z = p := by simpa using hk
    subst hp
    have : (init ++ [z]).set init.length z = init ++ [z] := by simp
    rw [this, List.dropLast_concat]
    refine ⟨hni, fun x => ?_⟩
    simp only [List.mem_append, List.mem_singleton]
    constructor
    · intro h; exact ⟨fun e => hz (e ▸ h), Or.inl h⟩
    · rintro ⟨h1, h | h⟩
      · exact h
      · exact absurd h h1

theorem contains_iff (s : State) (p : Int) : s.containsPred p = true ↔ p ∈ s.preds := by
  simp [State.containsPred]

theorem predRun_spec (ops : List PredOp) : ∀ (s : State) (S : Int → Prop) [DecidablePred S], s.preds.Nodup →
    (∀ x, x ∈ s.preds ↔ S x) → (s.predRun ops).2 = setRun S ops ∧ (s.predRun ops).1.preds.Nodup := by
  induction ops with
  | nil => intro s S _ hn _; exact ⟨rfl, hn⟩
  | cons op ops ih =>
    intro s S _ hn hS
    cases op with
    | add p =>
      simp only [State.predRun, State.predStep, setRun]
      by_cases hc : s.containsPred p = true
      · have hp := (contains_iff s p).mp hc
        have e : s.addPred p = s := by simp [State.addPred, hc]
        rw [e]
        have := ih s (fun x => x = p ∨ S x) hn (fun x => by
          rw [hS x]
          constructor
          · exact Or.inr
          · rintro (rfl | h)
            · exact (hS _).mp hp
            · exact h)
        exact ⟨by rw [this.1], this.2⟩
      · have hp : p ∉ s.preds := fun h => hc ((contains_iff s p).mpr h)
        have e : s.addPred p = { s with preds := s.preds ++ [p] } := by simp [State.addPred, hc]
        rw [e]
        have := ih { s with preds := s.preds ++ [p] } (fun x => x = p ∨ S x)
          (by
            show (s.preds ++ [p]).Nodup
            rw [List.nodup_append]
            refine ⟨hn, by simp, ?_⟩
            intro a ha b hb
            simp at hb; subst hb
            rintro rfl; exact hp ha)
          (fun x => by
            show x ∈ s.preds ++ [p] ↔ _
            simp only [List.mem_append, List.mem_singleton, hS x]; tauto)
        exact ⟨by rw [this.1], this.2⟩
    | remove p =>
      simp only [State.predRun, State.predStep, setRun]
      cases hpos : posOf p s.preds 0 with
      | none =>
        have hp := posOf_none hpos
        have e : s.removePred p = (s, false) := by simp [State.removePred, hpos]
        rw [e]
        have hSp : ¬ S p := fun h => hp ((hS p).mpr h)
        have := ih s (fun x => x ≠ p ∧ S x) hn (fun x => by
          rw [hS x]
          constructor
          · intro h; exact ⟨fun e => hSp (e ▸ h), h⟩
          · exact fun h => h.2)
        exact ⟨by rw [this.1]; simp [hSp], this.2⟩
      | some k =>
        obtain ⟨k', e', hk⟩ := posOf_some hpos
        have : k = k' := by omega
        subst this
        have hmem : p ∈ s.preds := List.mem_of_getElem? hk
        have hsw := swapRemove hk hn
        have e : s.removePred p = ({ s with preds := (s.preds.set k (s.preds.getLastD 0)).dropLast }, true) := by
          simp [State.removePred, hpos]
        rw [e]
        have := ih { s with preds := (s.preds.set k (s.preds.getLastD 0)).dropLast } (fun x => x ≠ p ∧ S x) hsw.1
          (fun x => by rw [← hS x]; exact hsw.2 x)
        exact ⟨by rw [this.1]; simp [(hS p).mp hmem], this.2⟩
    | contains p =>
      simp only [State.predRun, State.predStep, setRun]
      have := ih s S hn hS
      refine ⟨?_, this.2⟩
      rw [this.1]
      congr 1
      rw [Bool.eq_iff_iff, contains_iff, hS p]; simp

/-- **C25** for every history of AddPred / RemovePred / ContainsPred calls on a new state, all return values are those of a
mathematical set, and the predecessor list never contains duplicates. -/
theorem preds_are_set (id : Int) (acts : List Action) (ops : List PredOp) :
    ((⟨id, acts, []⟩ : State).predRun ops).2 = setRun (fun _ => False) ops ∧
    ((⟨id, acts, []⟩ : State).predRun ops).1.preds.Nodup :=
  predRun_spec ops _ _ (by simp) (by simp)

example : ((⟨0, [], []⟩ : State).predRun [.add 3, .add 4, .add 3, .remove 3, .contains 3, .contains 4, .remove 3]).2 =
    [true, true, true, true, false, true, false] := by decide

theorem indLoop_spec (s : Int) (os : List (Int × Int × ℚ)) : ∀ i,
    (∀ k, indLoop s os i = some k ↔ ∃ j, k = i + j ∧ (os[j]?.map (·.1)) = some s ∧ ∀ j' < j, (os[j']?.map (·.1)) ≠ some s) := by
  induction os with
  | nil => intro i k; simp [indLoop]
  | cons o os ih =>
    intro i k
    obtain ⟨t, c, p⟩ := o
    unfold indLoop
    split_ifs with h
    · subst h
      constructor
      · intro hk; cases hk
        exact ⟨0, by omega, by simp, by omega⟩
      · rintro ⟨j, rfl, _, hj⟩
        have : j = 0 := by
          by_contra hne
          exact hj 0 (by omega) (by simp)
        subst this; rfl
    · rw [ih (i + 1) k]
      constructor
      · rintro ⟨j, rfl, h1, h2⟩
        refine ⟨j + 1, by omega, by simpa using h1, ?_⟩
        intro j' hj'
        cases j' with
        | zero => simpa using h
        | succ j' => simpa using h2 j' (by omega)
      · rintro ⟨j, rfl, h1, h2⟩
        cases j with
        | zero => simp at h1; exact absurd h1 h
        | succ j =>
          refine ⟨j, by omega, by simpa using h1, ?_⟩
          intro j' hj'
          simpa using h2 (j' + 1) (by omega)

/-- **C25** GetIndofOutcome returns the first position holding the outcome. -/
theorem indOfOutcome_some (a : Action) (s : Int) (k : Nat) :
    a.indOfOutcome s = some k ↔ (a.outs[k]?.map (·.1)) = some s ∧ ∀ j < k, (a.outs[j]?.map (·.1)) ≠ some s := by
  unfold Action.indOfOutcome
  rw [indLoop_spec]
  constructor
  · rintro ⟨j, rfl, h⟩; simpa using h
  · intro h; exact ⟨k, by omega, h⟩

/-- **C25** GetIndofOutcome returns -1 exactly if the outcome is absent. -/
theorem indOfOutcome_none (a : Action) (s : Int) : a.indOfOutcome s = none ↔ ∀ o ∈ a.outs, o.1 ≠ s := by
  have key : ∀ (os : List (Int × Int × ℚ)) i, indLoop s os i = none ↔ ∀ o ∈ os, o.1 ≠ s := by
    intro os
    induction os with
    | nil => intro i; simp [indLoop]
    | cons o os ih =>
      intro i
      obtain ⟨t, c, p⟩ := o
      unfold indLoop
      split_ifs with h
      · simp [h]
      · rw [ih]; simp [h]
  exact key _ _

theorem mlLoop_spec (os : List (Int × Int × ℚ)) : ∀ (i : Nat) (ml : Option Nat) (hi : ℚ),
    (mlLoop os i ml hi = ml ∧ ∀ o ∈ os, o.2.2 < hi) ∨
    (∃ k o, mlLoop os i ml hi = some (i + k) ∧ os[k]? = some o ∧ hi ≤ o.2.2 ∧ (∀ o' ∈ os, o'.2.2 ≤ o.2.2) ∧
      ∀ k' > k, ∀ o', os[k']? = some o' → o'.2.2 < o.2.2) := by
  induction os with
  | nil => intro i ml hi; left; simp [mlLoop]
  | cons o os ih =>
    intro i ml hi
    obtain ⟨t, c, p⟩ := o
    unfold mlLoop
    split_ifs with h
    · right
      rcases ih (i + 1) (some i) p with ⟨h1, h2⟩ | ⟨k, o, h1, h2, h3, h4, h5⟩
      · refine ⟨0, (t, c, p), by simpa using h1, by simp, h, ?_, ?_⟩
        · intro o' ho'
          rcases List.mem_cons.mp ho' with rfl | ho'
          · exact le_refl _
          · exact (h2 o' ho').le
        · intro k' hk' o' ho'
          obtain ⟨j, rfl⟩ : ∃ j, k' = j + 1 := ⟨k' - 1, by omega⟩
          exact h2 o' (List.mem_of_getElem? (by simpa using ho'))
      · refine ⟨k + 1, o, by rw [h1]; congr 1; omega, by simpa using h2, le_trans h h3, ?_, ?_⟩
        · intro o' ho'
          rcases List.mem_cons.mp ho' with rfl | ho'
          · exact h3
          · exact h4 o' ho'
        · intro k' hk' o' ho'
          obtain ⟨j, rfl⟩ : ∃ j, k' = j + 1 := ⟨k' - 1, by omega⟩
          exact h5 j (by omega) o' (by simpa using ho')
    · have hlt : p < hi := not_le.mp h
      rcases ih (i + 1) ml hi with ⟨h1, h2⟩ | ⟨k, o, h1, h2, h3, h4, h5⟩
      · left
        refine ⟨h1, ?_⟩
        intro o ho
        rcases List.mem_cons.mp ho with rfl | ho
        · exact hlt
        · exact h2 o ho
      · right
        refine ⟨k + 1, o, by rw [h1]; congr 1; omega, by simpa using h2, h3, ?_, ?_⟩
        · intro o' ho'
          rcases List.mem_cons.mp ho' with rfl | ho'
          · exact (lt_of_lt_of_le hlt h3).le
          · exact h4 o' ho'
        · intro k' hk' o' ho'
          obtain ⟨j, rfl⟩ : ∃ j, k' = j + 1 := ⟨k' - 1, by omega⟩
          exact h5 j (by omega) o' (by simpa using ho')

/-- **C25** for an action with at least one outcome and non-negative probabilities GetIndofMostLikelyOutcome returns the
(last) position of maximal probability. -/
theorem mostLikely_max (a : Action) (hne : a.outs ≠ []) (hp : ∀ o ∈ a.outs, 0 ≤ o.2.2) :
    ∃ k o, a.mostLikely = some k ∧ a.outs[k]? = some o ∧ (∀ o' ∈ a.outs, o'.2.2 ≤ o.2.2) ∧
      ∀ k' > k, ∀ o', a.outs[k']? = some o' → o'.2.2 < o.2.2 := by
  unfold Action.mostLikely
  rcases mlLoop_spec a.outs 0 none 0 with ⟨_, h2⟩ | ⟨k, o, h1, h2, _, h4, h5⟩
  · obtain ⟨o, ho⟩ := List.exists_mem_of_ne_nil _ hne
    exact absurd (h2 o ho) (not_lt.mpr (hp o ho))
  · exact ⟨k, o, by simpa using h1, h2, h4, h5⟩

example : (⟨0, [(5, 1, 1/4), (6, 1, 1/2), (7, 1, 1/4)]⟩ : Action).mostLikely = some 1 := by decide +kernel

/-! ## C24 -/

section path
variable {m : List State}

theorem find_some {id : Int} {i : Nat} (h : find m id = some i) : ∃ s, m[i]? = some s ∧ s.id = id := by
  unfold find at h
  rw [List.findIdx?_eq_some_iff_getElem] at h
  obtain ⟨hi, hp, _⟩ := h
  exact ⟨m[i], by simp [hi], by simpa using hp⟩

theorem find_of_mem {id : Int} (h : ∃ t ∈ m, t.id = id) : ∃ i, find m id = some i := by
  obtain ⟨t, ht, e⟩ := h
  cases hf : find m id with
  | some i => exact ⟨i, rfl⟩
  | none =>
    unfold find at hf
    rw [List.findIdx?_eq_none_iff] at hf
    have := hf t ht
    simp [e] at this

theorem find_unique (hid : m.Pairwise (fun s t => s.id ≠ t.id)) {id : Int} {i : Nat} {t : State} (hi : m[i]? = some t)
    (he : t.id = id) : find m id = some i := by
  obtain ⟨j, hj⟩ := find_of_mem (m := m) ⟨t, List.mem_of_getElem? hi, he⟩
  obtain ⟨s, hs, es⟩ := find_some hj
  have : i = j := by
    by_contra hne
    rw [List.pairwise_iff_getElem] at hid
    obtain ⟨li, ei⟩ := List.getElem?_eq_some_iff.mp hi
    obtain ⟨lj, ej⟩ := List.getElem?_eq_some_iff.mp hs
    rcases Nat.lt_or_gt_of_ne hne with h | h
    · apply hid i j li lj h
      rw [ei, ej, he, es]
    · apply hid j i lj li h
      rw [ei, ej, he, es]
  rw [this]; exact hj

/-- unprocessed states -/
def unp (n : Nat) (proc : Nat → Bool) : Nat := ((List.range n).filter (fun i => proc i == false)).length

theorem unp_upd {n i : Nat} {proc : Nat → Bool} (hi : i < n) (h : proc i = false) :
    unp n (upd proc i true) + 1 ≤ unp n proc := by
  unfold unp
  have weak : ∀ l : List Nat, (l.filter (fun j => upd proc i true j == false)).length ≤
      (l.filter (fun j => proc j == false)).length := by
    intro l
    induction l with
    | nil => simp
    | cons a as ih =>
      simp only [List.filter_cons]
      by_cases ha : a = i
      · subst ha
        simp only [upd_same, h, beq_self_eq_true, if_true, List.length_cons]
        rw [if_neg (by decide)]
        omega
      · rw [upd_other _ _ ha]
        by_cases hp : proc a == false
        · simp only [hp, if_true, List.length_cons]; omega
        · simp only [hp]; exact ih
  have key : ∀ l : List Nat, i ∈ l → (l.filter (fun j => upd proc i true j == false)).length + 1 ≤
      (l.filter (fun j => proc j == false)).length := by
    intro l
    induction l with
    | nil => simp
    | cons a as ih =>
      intro hm
      simp only [List.filter_cons]
      by_cases ha : a = i
      · subst ha
        have := weak as
        simp only [upd_same, h, beq_self_eq_true, if_true, List.length_cons]
        rw [if_neg (by decide)]
        omega
      · have hm' : i ∈ as := by
          rcases List.mem_cons.mp hm with h | h
          · exact absurd h.symm ha
          · exact h
        have := ih hm'
        rw [upd_other _ _ ha]
        by_cases hp : proc a == false
        · simp only [hp, if_true, List.length_cons]; omega
        · simp only [hp]; exact this
  exact key _ (List.mem_range.mpr hi)

theorem succLoop_spec {hid : m.Pairwise (fun s t => s.id ≠ t.id)} (os : List (Int × Int × ℚ)) :
    ∀ (proc : Nat → Bool) (wl : List Nat), (∀ o ∈ os, ∃ t ∈ m, t.id = o.1) →
    ∃ proc' wl', succLoop m os proc wl = .ok (proc', wl') ∧
      (∀ i, proc i = true → proc' i = true) ∧ (∀ i ∈ wl, i ∈ wl') ∧
      (∀ i, proc' i = true → proc i = true ∨ (i ∈ wl' ∧ ∃ t, m[i]? = some t ∧ ∃ o ∈ os, o.1 = t.id)) ∧
      (∀ i ∈ wl', i ∈ wl ∨ ∃ t, m[i]? = some t ∧ ∃ o ∈ os, o.1 = t.id) ∧
      (∀ i t, m[i]? = some t → (∃ o ∈ os, o.1 = t.id) → proc' i = true) ∧
      wl'.length + unp m.length proc' ≤ wl.length + unp m.length proc := by
  induction os with
  | nil =>
    intro proc wl _
    exact ⟨proc, wl, rfl, fun _ h => h, fun _ h => h, fun _ h => Or.inl h, fun _ h => Or.inl h, by simp, le_refl _⟩
  | cons o os ih =>
    intro proc wl hos
    obtain ⟨id, c, p⟩ := o
    obtain ⟨i, hi⟩ := find_of_mem (hos (id, c, p) (by simp))
    obtain ⟨t, ht, et⟩ := find_some hi
    have hil : i < m.length := (List.getElem?_eq_some_iff.mp ht).1
    simp only at et
    unfold succLoop
    simp only [hi]
    by_cases hpr : proc i = false
    · rw [if_pos hpr]
      obtain ⟨proc', wl', h1, h2, h3, h4, h5, h6, h7⟩ := ih (upd proc i true) (i :: wl) (fun o ho => hos o (by simp [ho]))
      have hiw : i ∈ wl' := h3 i (by simp)
      refine ⟨proc', wl', h1, ?_, ?_, ?_, ?_, ?_, ?_⟩
      · intro j hj
        apply h2
        by_cases e : j = i
        · subst e; simp
        · rw [upd_other _ _ e]; exact hj
      · intro j hj; exact h3 j (by simp [hj])
      · intro j hj
        rcases h4 j hj with h | ⟨h, t', ht', o', ho', e'⟩
        · by_cases e : j = i
          · subst e
            exact Or.inr ⟨hiw, t, ht, (id, c, p), by simp, et.symm⟩
          · rw [upd_other _ _ e] at h; exact Or.inl h
        · exact Or.inr ⟨h, t', ht', o', by simp [ho'], e'⟩
      · intro j hj
        rcases h5 j hj with h | ⟨t', ht', o', ho', e'⟩
        · rcases List.mem_cons.mp h with rfl | h
          · exact Or.inr ⟨t, ht, (id, c, p), by simp, et.symm⟩
          · exact Or.inl h
        · exact Or.inr ⟨t', ht', o', by simp [ho'], e'⟩
      · intro j t' hj ho
        obtain ⟨o', ho', e'⟩ := ho
        rcases List.mem_cons.mp ho' with rfl | ho'
        · have h8 := find_unique hid hj e'.symm
          have h9 : j = i := by
            simp only at h8
            rw [h8] at hi
            exact Option.some.inj hi
          subst h9
          exact h2 j (by simp)
        · exact h6 j t' hj ⟨o', ho', e'⟩
      · have := unp_upd hil hpr
        simp only [List.length_cons] at h7
        omega
    · rw [if_neg hpr]
      have hpr' : proc i = true := by simpa using hpr
      obtain ⟨proc', wl', h1, h2, h3, h4, h5, h6, h7⟩ := ih proc wl (fun o ho => hos o (by simp [ho]))
      refine ⟨proc', wl', h1, h2, h3, ?_, ?_, ?_, h7⟩
      · intro j hj
        rcases h4 j hj with h | ⟨h, t', ht', o', ho', e'⟩
        · exact Or.inl h
        · exact Or.inr ⟨h, t', ht', o', by simp [ho'], e'⟩
      · intro j hj
        rcases h5 j hj with h | ⟨t', ht', o', ho', e'⟩
        · exact Or.inl h
        · exact Or.inr ⟨t', ht', o', by simp [ho'], e'⟩
      · intro j t' hj ho
        obtain ⟨o', ho', e'⟩ := ho
        rcases List.mem_cons.mp ho' with rfl | ho'
        · have h8 := find_unique hid hj e'.symm
          have h9 : j = i := by
            simp only at h8
            rw [h8] at hi
            exact Option.some.inj hi
          subst h9
          exact h2 j hpr'
        · exact h6 j t' hj ⟨o', ho', e'⟩

/-- invariant of the work-list loop -/
structure PInv (m : List State) (source target : Nat) (proc : Nat → Bool) (wl : List Nat) : Prop where
  work : ∀ i ∈ wl, i < m.length ∧ Reach m source i
  pr : ∀ i, proc i = true → Reach m source i
  closed : ∀ i, (i = source ∨ proc i = true) → i ∉ wl → i ≠ target ∧ ∀ j, Edge m i j → proc j = true

theorem loop_spec (hm : Chain m) {source target : Nat} : ∀ (fuel : Nat) (proc : Nat → Bool) (wl : List Nat),
    PInv m source target proc wl → wl.length + unp m.length proc ≤ fuel →
    ∃ b, loop m target fuel proc wl = some (.ok b) ∧ (b = true ↔ Reach m source target) := by
  intro fuel
  induction fuel with
  | zero =>
    intro proc wl hI hf
    have : wl = [] := List.length_eq_zero_iff.mp (by omega)
    subst this
    refine ⟨false, rfl, ?_⟩
    simp only [Bool.false_eq_true, false_iff]
    intro hr
    have : ∀ j, Reach m source j → j = source ∨ proc j = true := by
      intro j hj
      induction hj with
      | refl => exact Or.inl rfl
      | step _ he ih => exact Or.inr ((hI.closed _ ih (by simp)).2 _ he)
    exact (hI.closed _ (this _ hr) (by simp)).1 rfl
  | succ n ih =>
    intro proc wl hI hf
    cases wl with
    | nil =>
      refine ⟨false, rfl, ?_⟩
      simp only [Bool.false_eq_true, false_iff]
      intro hr
      have : ∀ j, Reach m source j → j = source ∨ proc j = true := by
        intro j hj
        induction hj with
        | refl => exact Or.inl rfl
        | step _ he ih => exact Or.inr ((hI.closed _ ih (by simp)).2 _ he)
      exact (hI.closed _ (this _ hr) (by simp)).1 rfl
    | cons i wl =>
      obtain ⟨hil, hir⟩ := hI.work i (by simp)
      have hs : m[i]? = some m[i] := by simp [hil]
      unfold loop
      simp only [hs]
      have hsm : m[i] ∈ m := List.getElem_mem hil
      have hlen := hm.single _ hsm
      rw [if_neg (by omega)]
      by_cases hit : i = target
      · rw [if_pos hit]
        subst hit
        exact ⟨true, rfl, by simp [hir]⟩
      · rw [if_neg hit]
        have hmem : ∀ o, o ∈ (m[i].actions.head?.map Action.outs).getD [] ↔ ∃ a ∈ m[i].actions, o ∈ a.outs := by
          intro o
          cases ha : m[i].actions with
          | nil => simp
          | cons a as =>
            have : as = [] := by
              rw [ha] at hlen
              simp at hlen
              exact hlen
            subst this
            simp
        have hos : ∀ o ∈ (m[i].actions.head?.map Action.outs).getD [], ∃ t ∈ m, t.id = o.1 := by
          intro o ho
          obtain ⟨a, ha, hoa⟩ := (hmem o).mp ho
          exact hm.succs _ hsm a ha o hoa
        obtain ⟨proc', wl', h1, h2, h3, h4, h5, h6, h7⟩ := succLoop_spec (hid := hm.ids) _ proc wl hos
        simp only [h1]
        have hedge : ∀ j t, m[j]? = some t → (∃ o ∈ (m[i].actions.head?.map Action.outs).getD [], o.1 = t.id) → Edge m i j := by
          rintro j t hj ⟨o, ho, e⟩
          obtain ⟨a, ha, hoa⟩ := (hmem o).mp ho
          exact ⟨m[i], t, a, o, hs, hj, ha, hoa, e⟩
        apply ih proc' wl'
        · refine ⟨?_, ?_, ?_⟩
          · intro j hj
            rcases h5 j hj with h | ⟨t, ht, ho⟩
            · exact hI.work j (by simp [h])
            · exact ⟨(List.getElem?_eq_some_iff.mp ht).1, hir.step (hedge j t ht ho)⟩
          · intro j hj
            rcases h4 j hj with h | ⟨_, t, ht, ho⟩
            · exact hI.pr j h
            · exact hir.step (hedge j t ht ho)
          · intro j hj hjw
            by_cases hji : j = i
            · subst hji
              refine ⟨hit, ?_⟩
              rintro k ⟨s', t, a, o, hs', ht, ha, hoa, e⟩
              rw [hs] at hs'
              cases hs'
              exact h6 k t ht ⟨o, (hmem o).mpr ⟨a, ha, hoa⟩, e⟩
            · have hj' : j = source ∨ proc j = true := by
                rcases hj with h | h
                · exact Or.inl h
                · rcases h4 j h with h' | ⟨h', _⟩
                  · exact Or.inr h'
                  · exact absurd h' hjw
              obtain ⟨g1, g2⟩ := hI.closed j hj' (by
                simp only [List.mem_cons, not_or]
                exact ⟨hji, fun h => hjw (h3 j h)⟩)
              exact ⟨g1, fun k hk => h2 k (g2 k hk)⟩
        · simp only [List.length_cons] at hf
          omega

/-- **C24** on every Markov chain PathExists terminates and returns true exactly if the target is reachable from the source. -/
theorem pathExists_iff (hm : Chain m) {source target : Nat} (hs : source < m.length) :
    ∃ N b, (∀ fuel, N ≤ fuel → pathExists m source target fuel = some (.ok b)) ∧ (b = true ↔ Reach m source target) := by
  have hI : PInv m source target (fun _ => false) [source] :=
    ⟨by intro i hi; simp at hi; subst hi; exact ⟨hs, Reach.refl⟩, by simp, by
      intro i hi hn
      simp at hi hn
      exact absurd hi hn⟩
  have hun : unp m.length (fun _ => false) ≤ m.length := by
    unfold unp
    have := List.length_filter_le (fun i => ((fun _ : Nat => false) i == false)) (List.range m.length)
    simpa using this
  obtain ⟨b, h1, h2⟩ := loop_spec hm (m.length + 1) (fun _ => false) [source] hI (by simp; omega)
  refine ⟨m.length + 1, b, ?_, h2⟩
  intro fuel hf
  obtain ⟨b', h1', h2'⟩ := loop_spec hm fuel (fun _ => false) [source] hI (by simp; omega)
  have : b' = b := by
    rw [Bool.eq_iff_iff, h2, h2']
  rw [← this]; exact h1'

end path

/-- three states in a row and an isolated one -/
def demo : List State := [⟨10, [⟨0, [(20, 1, 1/2), (10, 1, 1/2)]⟩], []⟩, ⟨20, [⟨0, [(30, 1, 1)]⟩], []⟩, ⟨30, [], []⟩, ⟨40, [⟨0, [(10, 1, 1)]⟩], []⟩]
example : Chain demo ∧ pathExists demo 0 2 9 = some (.ok true) ∧ pathExists demo 0 3 9 = some (.ok false) := by
  refine ⟨⟨by decide, by decide, ?_⟩, by decide +kernel, by decide +kernel⟩
  simp only [demo, List.mem_cons, List.not_mem_nil, or_false]
  rintro s (rfl | rfl | rfl | rfl) a ha o ho <;> simp at ha <;> subst ha <;> simp at ho
  · rcases ho with rfl | rfl <;> simp
  · subst ho; simp
  · subst ho; simp

end Sbpl.MDPProps
