import Verif.Model.DistTransform
import Verif.Spec.DistTransform
import Mathlib.Tactic.SplitIfs
import Mathlib.Tactic.Linarith
import Mathlib.Tactic.Ring
/-! # Proofs about the distance transform -/

namespace Sbpl.Dist
open DistSpec

/-! ## One array at a time -/

/-- minimum over the neighbours, one array -/
def Map.relax (m : Map) (x y : Int) (A : Arr) (dirs : List (Int × Int × Nat)) (v : Nat) : Nat :=
  dirs.foldl (fun v d => min v (d.2.2 + if m.outside (x + d.1) (y + d.2.1) then 0 else A (x + d.1) (y + d.2.1))) v

theorem nbr_fold (m : Map) (x y : Int) (A B : Arr) : ∀ (dirs : List (Int × Int × Nat)) (v : Nat × Nat),
    dirs.foldl (m.nbr x y A B) v = (m.relax x y A dirs v.1, m.relax x y B dirs v.2)
  | [], v => rfl
  | d :: ds, v => by
    rw [List.foldl_cons, nbr_fold m x y A B ds]
    unfold Map.relax
    rw [List.foldl_cons, List.foldl_cons]
    have h1 : (m.nbr x y A B v d).1 = min v.1 (d.2.2 + if m.outside (x + d.1) (y + d.2.1) then 0 else A (x + d.1) (y + d.2.1)) := by
      unfold Map.nbr; dsimp only; split_ifs <;> omega
    have h2 : (m.nbr x y A B v d).2 = min v.2 (d.2.2 + if m.outside (x + d.1) (y + d.2.1) then 0 else B (x + d.1) (y + d.2.1)) := by
      unfold Map.nbr; dsimp only; split_ifs <;> omega
    rw [h1, h2]

theorem relax_zero (m : Map) (x y : Int) (A : Arr) : ∀ dirs : List (Int × Int × Nat), m.relax x y A dirs 0 = 0
  | [] => rfl
  | d :: ds => by
    unfold Map.relax
    rw [List.foldl_cons, Nat.zero_min]
    exact relax_zero m x y A ds

theorem relax_le (m : Map) (x y : Int) (A : Arr) : ∀ (dirs : List (Int × Int × Nat)) (v : Nat), m.relax x y A dirs v ≤ v
  | [], v => Nat.le_refl _
  | d :: ds, v => by
    unfold Map.relax
    rw [List.foldl_cons]
    exact Nat.le_trans (relax_le m x y A ds _) (by omega)

theorem relax_le_dir (m : Map) (x y : Int) (A : Arr) : ∀ (dirs : List (Int × Int × Nat)) (v : Nat) (d : Int × Int × Nat), d ∈ dirs →
    m.relax x y A dirs v ≤ d.2.2 + if m.outside (x + d.1) (y + d.2.1) then 0 else A (x + d.1) (y + d.2.1)
  | [], v, d, h => by simp at h
  | e :: ds, v, d, h => by
    unfold Map.relax
    rw [List.foldl_cons]
    rcases List.mem_cons.mp h with rfl | h
    · exact Nat.le_trans (relax_le m x y A ds _) (by omega)
    · exact relax_le_dir m x y A ds _ d h

theorem relax_attained (m : Map) (x y : Int) (A : Arr) : ∀ (dirs : List (Int × Int × Nat)) (v : Nat), m.relax x y A dirs v = v ∨
    ∃ d ∈ dirs, m.relax x y A dirs v = d.2.2 + if m.outside (x + d.1) (y + d.2.1) then 0 else A (x + d.1) (y + d.2.1)
  | [], v => .inl rfl
  | e :: ds, v => by
    unfold Map.relax
    rw [List.foldl_cons]
    have := relax_attained m x y A ds (min v (e.2.2 + if m.outside (x + e.1) (y + e.2.1) then 0 else A (x + e.1) (y + e.2.1)))
    unfold Map.relax at this
    rcases this with h | ⟨d, hd, h⟩
    · rw [h]
      rcases Nat.le_total v (e.2.2 + if m.outside (x + e.1) (y + e.2.1) then 0 else A (x + e.1) (y + e.2.1)) with h1 | h1
      · left; omega
      · right; exact ⟨e, by simp, by omega⟩
    · right; exact ⟨d, by simp [hd], h⟩

theorem relax_congr {m : Map} {x y : Int} {A B : Arr} {dirs : List (Int × Int × Nat)} {v : Nat}
    (h : ∀ d ∈ dirs, m.outside (x + d.1) (y + d.2.1) = false → A (x + d.1) (y + d.2.1) = B (x + d.1) (y + d.2.1)) :
    m.relax x y A dirs v = m.relax x y B dirs v := by
  unfold Map.relax
  induction dirs generalizing v with
  | nil => rfl
  | cons e ds ih =>
    rw [List.foldl_cons, List.foldl_cons, ih (fun d hd => h d (by simp [hd]))]
    congr 2
    split_ifs with h1
    · rfl
    · rw [h e (by simp) (by simpa using h1)]

/-- one cell, first pass, one array; `Z` are the cells at distance 0 -/
def Map.dCell (m : Map) (Z : Int → Int → Bool) (dirs : List (Int × Int × Nat)) (x : Int) (A : Arr) (y : Int) : Arr :=
  set2 A x y (if Z x y then 0 else m.relax x y A dirs (1000 * min m.W m.H))
def Map.uCell (m : Map) (dirs : List (Int × Int × Nat)) (x : Int) (A : Arr) (y : Int) : Arr := set2 A x y (m.relax x y A dirs (A x y))

def Map.dRow (m : Map) (Z : Int → Int → Bool) (A : Arr) (x : Int) : Arr :=
  if x % 2 = 0 then (asc m.H).foldl (m.dCell Z downLR x) A else (desc m.H).foldl (m.dCell Z downRL x) A
def Map.uRow (m : Map) (A : Arr) (x : Int) : Arr :=
  if x % 2 = 0 then (desc m.H).foldl (m.uCell upRL x) A else (asc m.H).foldl (m.uCell upLR x) A

def Map.isObs (m : Map) (x y : Int) : Bool := decide (m.obsthresh ≤ m.G x y)
def Map.isNon (m : Map) (x y : Int) : Bool := decide (m.obsthresh ≤ m.G x y ∨ 0 < m.G x y)

theorem foldl_pair {α : Type} (f : Arr × Arr → α → Arr × Arr) (g h : Arr → α → Arr) (e : ∀ A a, f A a = (g A.1 a, h A.2 a)) : ∀ (l : List α) (A : Arr × Arr),
    l.foldl f A = (l.foldl g A.1, l.foldl h A.2)
  | [], A => rfl
  | a :: l, A => by rw [List.foldl_cons, foldl_pair f g h e l, e]; rfl

theorem downCell_split (m : Map) (dirs : List (Int × Int × Nat)) (x : Int) (A : Arr × Arr) (y : Int) :
    m.downCell dirs x A y = (m.dCell m.isObs dirs x A.1 y, m.dCell m.isNon dirs x A.2 y) := by
  unfold Map.downCell Map.dCell Map.isObs Map.isNon
  by_cases h : m.obsthresh ≤ m.G x y
  · simp [h]
  · simp only [h, decide_false, if_false, Bool.false_eq_true, nbr_fold, false_or]
    by_cases h2 : 0 < m.G x y
    · simp [h2, relax_zero]
    · simp [h2]

theorem upCell_split (m : Map) (dirs : List (Int × Int × Nat)) (x : Int) (A : Arr × Arr) (y : Int) :
    m.upCell dirs x A y = (m.uCell dirs x A.1 y, m.uCell dirs x A.2 y) := by
  unfold Map.upCell Map.uCell
  rw [nbr_fold]

theorem compute_split (m : Map) (A : Arr × Arr) : m.compute A =
    ((desc m.W).foldl m.uRow ((asc m.W).foldl (m.dRow m.isObs) A.1), (desc m.W).foldl m.uRow ((asc m.W).foldl (m.dRow m.isNon) A.2)) := by
  have d : ∀ A x, m.downRow A x = (m.dRow m.isObs A.1 x, m.dRow m.isNon A.2 x) := by
    intro A x
    unfold Map.downRow Map.dRow
    split_ifs
    · exact foldl_pair _ _ _ (downCell_split m downLR x) _ _
    · exact foldl_pair _ _ _ (downCell_split m downRL x) _ _
  have u : ∀ A x, m.upRow A x = (m.uRow A.1 x, m.uRow A.2 x) := by
    intro A x
    unfold Map.upRow Map.uRow
    split_ifs
    · exact foldl_pair _ _ _ (upCell_split m upRL x) _ _
    · exact foldl_pair _ _ _ (upCell_split m upLR x) _ _
  unfold Map.compute
  rw [foldl_pair _ _ _ d, foldl_pair _ _ _ u]

/-! ## A row, as equations -/

/-- A loop over the row `x` in the order `φ 0, φ 1, ...`: in the end each value is what the body computes from the final array. -/
theorem row_loop {x : Int} {φ : Nat → Int} (inj : ∀ i j, φ i = φ j → i = j) {f : Arr → Int → Arr} {v : Arr → Arr → Nat → Nat} (A0 : Arr)
    (hf : ∀ A k, (∀ a b, a ≠ x ∨ (∀ j < k, b ≠ φ j) → A a b = A0 a b) → f A (φ k) = set2 A x (φ k) (v A0 A k))
    (dep : ∀ A B k, (∀ a b, a ≠ x ∨ (∀ j, k ≤ j → b ≠ φ j) → A a b = B a b) → v A0 A k = v A0 B k) : ∀ n : Nat,
    let A := ((List.range n).map φ).foldl f A0
    (∀ k < n, A x (φ k) = v A0 A k) ∧ ∀ a b, a ≠ x ∨ (∀ j < n, b ≠ φ j) → A a b = A0 a b
  | 0 => ⟨by simp, by intros; rfl⟩
  | n + 1 => by
    obtain ⟨h1, h2⟩ := row_loop inj A0 hf dep n
    rw [List.range_succ, List.map_append, List.foldl_append]
    simp only [List.map_cons, List.map_nil, List.foldl_cons, List.foldl_nil]
    generalize ((List.range n).map φ).foldl f A0 = A at *
    rw [hf A n h2]
    have dd : ∀ k, k ≤ n → v A0 (set2 A x (φ n) (v A0 A n)) k = v A0 A k := by
      intro k hk
      apply dep
      intro a b hab
      unfold set2
      rw [if_neg]
      rintro ⟨rfl, rfl⟩
      rcases hab with h | h
      · exact h rfl
      · exact h n hk rfl
    constructor
    · intro k hk
      rw [dd k (by omega)]
      by_cases hkn : k = n
      · subst hkn; simp [set2]
      · rw [← h1 k (by omega)]
        unfold set2
        rw [if_neg]
        rintro ⟨-, h⟩
        exact hkn (inj _ _ h)
    · intro a b hab
      rw [← h2 a b (by
        rcases hab with h | h
        · exact .inl h
        · exact .inr (fun j hj => h j (by omega)))]
      unfold set2
      rw [if_neg]
      rintro ⟨rfl, rfl⟩
      rcases hab with h | h
      · exact h rfl
      · exact h n (by omega) rfl

/-- neighbours in other rows, and the one passed before -/
def DirsOk (dirs : List (Int × Int × Nat)) (s : Int) : Prop := ∀ d ∈ dirs, d.1 = 0 → d.2.1 = - s

theorem asc_eq (n : Nat) : asc n = (List.range n).map (fun (k : Nat) => (k : Int)) := rfl
theorem desc_eq (n : Nat) : desc n = (List.range n).map (fun (k : Nat) => (n : Int) - 1 - k) := rfl

theorem outside_iff {m : Map} {x y : Int} : m.outside x y = false ↔ 0 ≤ x ∧ x < m.W ∧ 0 ≤ y ∧ y < m.H := by
  unfold Map.outside; rw [decide_eq_false_iff_not]; omega

/-- what the loop over a row achieves -/
theorem row_asc {m : Map} {x : Int} {dirs : List (Int × Int × Nat)} (hd : DirsOk dirs 1) {w : Arr → Int → Nat} {f : Arr → Int → Arr}
    (A0 : Arr) (hw : ∀ A y, A x y = A0 x y → f A y = set2 A x y (if w A0 y = 0 then 0 else m.relax x y A dirs (w A0 y))) :
    let A := (asc m.H).foldl f A0
    (∀ y : Int, 0 ≤ y → y < m.H → A x y = if w A0 y = 0 then 0 else m.relax x y A dirs (w A0 y)) ∧ ∀ a b, a ≠ x ∨ b < 0 ∨ (m.H : Int) ≤ b → A a b = A0 a b := by
  have := row_loop (x := x) (φ := fun (k : Nat) => (k : Int)) (by intro i j h; simpa using h) (f := f)
    (v := fun A0 A k => if w A0 (k : Int) = 0 then 0 else m.relax x (k : Int) A dirs (w A0 (k : Int))) A0 (by
      intro A k h
      exact hw A k (h x k (.inr (fun j hj => by omega)))) (by
      intro A B k h
      split_ifs
      · rfl
      · apply relax_congr
        intro d hdm ho
        apply h
        by_cases h0 : d.1 = 0
        · right
          have := hd d hdm h0
          intro j hj
          rw [this]; omega
        · left; omega) m.H
  rw [← asc_eq] at this
  constructor
  · intro y h0 h1
    obtain ⟨k, rfl⟩ := Int.eq_ofNat_of_zero_le h0
    exact this.1 k (by omega)
  · intro a b hab
    apply this.2
    rcases hab with h | h
    · exact .inl h
    · right; intro j hj; omega

theorem row_desc {m : Map} {x : Int} {dirs : List (Int × Int × Nat)} (hd : DirsOk dirs (-1)) {w : Arr → Int → Nat} {f : Arr → Int → Arr}
    (A0 : Arr) (hw : ∀ A y, A x y = A0 x y → f A y = set2 A x y (if w A0 y = 0 then 0 else m.relax x y A dirs (w A0 y))) :
    let A := (desc m.H).foldl f A0
    (∀ y : Int, 0 ≤ y → y < m.H → A x y = if w A0 y = 0 then 0 else m.relax x y A dirs (w A0 y)) ∧ ∀ a b, a ≠ x ∨ b < 0 ∨ (m.H : Int) ≤ b → A a b = A0 a b := by
  have := row_loop (x := x) (φ := fun (k : Nat) => (m.H : Int) - 1 - k) (by intro i j h; omega) (f := f)
    (v := fun A0 A k => if w A0 ((m.H : Int) - 1 - k) = 0 then 0 else m.relax x ((m.H : Int) - 1 - k) A dirs (w A0 ((m.H : Int) - 1 - k))) A0 (by
      intro A k h
      exact hw A _ (h x _ (.inr (fun j hj => by omega)))) (by
      intro A B k h
      split_ifs
      · rfl
      · apply relax_congr
        intro d hdm ho
        apply h
        by_cases h0 : d.1 = 0
        · right
          have := hd d hdm h0
          intro j hj
          rw [this]; omega
        · left; omega) m.H
  rw [← desc_eq] at this
  constructor
  · intro y h0 h1
    have := this.1 (m.H - 1 - y.toNat) (by omega)
    have e : (m.H : Int) - 1 - ((m.H - 1 - y.toNat : Nat) : Int) = y := by omega
    rw [e] at this
    exact this
  · intro a b hab
    apply this.2
    rcases hab with h | h
    · exact .inl h
    · right; intro j hj; omega

/-- the order within a row of the first pass -/
def dirsDown (x : Int) : List (Int × Int × Nat) := if x % 2 = 0 then downLR else downRL
def dirsUp (x : Int) : List (Int × Int × Nat) := if x % 2 = 0 then upRL else upLR

theorem dRow_spec (m : Map) (Z : Int → Int → Bool) (hm : 0 < m.W ∧ 0 < m.H) (A0 : Arr) (x : Int) :
    (∀ y : Int, 0 ≤ y → y < m.H → m.dRow Z A0 x x y = if Z x y then 0 else m.relax x y (m.dRow Z A0 x) (dirsDown x) (1000 * min m.W m.H)) ∧
    ∀ a b, a ≠ x ∨ b < 0 ∨ (m.H : Int) ≤ b → m.dRow Z A0 x a b = A0 a b := by
  have key : ∀ (dirs : List (Int × Int × Nat)) (A : Arr) (y : Int), (if (if Z x y then 0 else 1000 * min m.W m.H) = 0 then 0 else m.relax x y A dirs (if Z x y then 0 else 1000 * min m.W m.H)) =
      if Z x y then 0 else m.relax x y A dirs (1000 * min m.W m.H) := by
    intro dirs A y
    cases Z x y <;> simp <;> omega
  unfold Map.dRow dirsDown
  split_ifs with h
  · have := row_asc (m := m) (x := x) (dirs := downLR) (by unfold DirsOk downLR; simp) (w := fun _ y => if Z x y then 0 else 1000 * min m.W m.H) (f := m.dCell Z downLR x) A0 (by
      intro A y _; unfold Map.dCell; rw [key])
    simp only [key] at this
    exact this
  · have := row_desc (m := m) (x := x) (dirs := downRL) (by unfold DirsOk downRL; simp) (w := fun _ y => if Z x y then 0 else 1000 * min m.W m.H) (f := m.dCell Z downRL x) A0 (by
      intro A y _; unfold Map.dCell; rw [key])
    simp only [key] at this
    exact this

theorem uRow_spec (m : Map) (A0 : Arr) (x : Int) :
    (∀ y : Int, 0 ≤ y → y < m.H → m.uRow A0 x x y = m.relax x y (m.uRow A0 x) (dirsUp x) (A0 x y)) ∧
    ∀ a b, a ≠ x ∨ b < 0 ∨ (m.H : Int) ≤ b → m.uRow A0 x a b = A0 a b := by
  have key : ∀ (dirs : List (Int × Int × Nat)) (A : Arr) (y : Int) (v : Nat), (if v = 0 then 0 else m.relax x y A dirs v) = m.relax x y A dirs v := by
    intro dirs A y v
    by_cases h : v = 0
    · rw [if_pos h, h, relax_zero]
    · rw [if_neg h]
  unfold Map.uRow dirsUp
  split_ifs with h
  · have := row_desc (m := m) (x := x) (dirs := upRL) (by unfold DirsOk upRL; simp) (w := fun A y => A x y) (f := m.uCell upRL x) A0 (by
      intro A y e; unfold Map.uCell; rw [key, e])
    simp only [key] at this
    exact this
  · have := row_asc (m := m) (x := x) (dirs := upLR) (by unfold DirsOk upLR; simp) (w := fun A y => A x y) (f := m.uCell upLR x) A0 (by
      intro A y e; unfold Map.uCell; rw [key, e])
    simp only [key] at this
    exact this

/-! ## The passes, as equations -/

/-- the equations of the first pass -/
def DownEq (m : Map) (Z : Int → Int → Bool) (F : Arr) : Prop := ∀ x y : Int, 0 ≤ x → x < m.W → 0 ≤ y → y < m.H →
  F x y = if Z x y then 0 else m.relax x y F (dirsDown x) (1000 * min m.W m.H)
/-- the equations of the second pass -/
def UpEq (m : Map) (F B : Arr) : Prop := ∀ x y : Int, 0 ≤ x → x < m.W → 0 ≤ y → y < m.H → B x y = m.relax x y B (dirsUp x) (F x y)

theorem dirsDown_rows {x : Int} {d : Int × Int × Nat} (h : d ∈ dirsDown x) : d.1 = 0 ∨ d.1 = -1 := by
  unfold dirsDown downLR downRL at h
  split_ifs at h <;> (simp only [List.mem_cons, List.not_mem_nil, or_false] at h; rcases h with rfl | rfl | rfl | rfl <;> simp)
theorem dirsUp_rows {x : Int} {d : Int × Int × Nat} (h : d ∈ dirsUp x) : d.1 = 0 ∨ d.1 = 1 := by
  unfold dirsUp upLR upRL at h
  split_ifs at h <;> (simp only [List.mem_cons, List.not_mem_nil, or_false] at h; rcases h with rfl | rfl | rfl | rfl <;> simp)

theorem downEq (m : Map) (Z : Int → Int → Bool) (hm : 0 < m.W ∧ 0 < m.H) (A0 : Arr) : DownEq m Z ((asc m.W).foldl (m.dRow Z) A0) := by
  have key : ∀ n : Nat, ∀ x y : Int, 0 ≤ x → x < n → 0 ≤ y → y < m.H → (asc n).foldl (m.dRow Z) A0 x y =
      if Z x y then 0 else m.relax x y ((asc n).foldl (m.dRow Z) A0) (dirsDown x) (1000 * min m.W m.H) := by
    intro n
    induction n with
    | zero => intro x y h1 h2; omega
    | succ n ih =>
      intro x y h1 h2 h3 h4
      have e : (asc (n + 1)).foldl (m.dRow Z) A0 = m.dRow Z ((asc n).foldl (m.dRow Z) A0) n := by
        unfold asc; rw [List.range_succ, List.map_append, List.foldl_append]; rfl
      rw [e]
      generalize (asc n).foldl (m.dRow Z) A0 = A at *
      obtain ⟨s1, s2⟩ := dRow_spec m Z hm A n
      by_cases hx : x = n
      · subst hx; exact s1 y h3 h4
      · rw [s2 x y (.inl hx), ih x y h1 (by omega) h3 h4]
        congr 1
        apply relax_congr
        intro d hd _
        rw [s2]
        left
        rcases dirsDown_rows hd with h | h <;> omega
  exact key m.W

theorem upEq (m : Map) (A0 : Arr) : UpEq m A0 ((desc m.W).foldl m.uRow A0) := by
  have key : ∀ n : Nat, n ≤ m.W → (∀ x y : Int, (m.W : Int) - n ≤ x → x < m.W → 0 ≤ y → y < m.H →
      ((List.range n).map (fun (k : Nat) => (m.W : Int) - 1 - k)).foldl m.uRow A0 x y =
        m.relax x y (((List.range n).map (fun (k : Nat) => (m.W : Int) - 1 - k)).foldl m.uRow A0) (dirsUp x) (A0 x y)) ∧
      ∀ x y, x < (m.W : Int) - n → ((List.range n).map (fun (k : Nat) => (m.W : Int) - 1 - k)).foldl m.uRow A0 x y = A0 x y := by
    intro n
    induction n with
    | zero => intro _; exact ⟨by intro x y h1 h2; omega, by intros; rfl⟩
    | succ n ih =>
      intro hn
      obtain ⟨i1, i2⟩ := ih (by omega)
      rw [List.range_succ, List.map_append, List.foldl_append]
      simp only [List.map_cons, List.map_nil, List.foldl_cons, List.foldl_nil]
      generalize ((List.range n).map (fun (k : Nat) => (m.W : Int) - 1 - k)).foldl m.uRow A0 = A at *
      obtain ⟨s1, s2⟩ := uRow_spec m A ((m.W : Int) - 1 - n)
      constructor
      · intro x y h1 h2 h3 h4
        by_cases hx : x = (m.W : Int) - 1 - n
        · subst hx; rw [s1 y h3 h4, i2 _ _ (by omega)]
        · rw [s2 x y (.inl hx), i1 x y (by omega) h2 h3 h4]
          apply relax_congr
          intro d hd _
          rw [s2]
          left
          rcases dirsUp_rows hd with h | h <;> omega
      · intro x y h
        rw [s2 x y (.inl (by omega)), i2 x y (by omega)]
  intro x y h1 h2 h3 h4
  exact (key m.W (Nat.le_refl _)).1 x y (by omega) h2 h3 h4

/-! ## The values -/

theorem octile_step {p q o : Int × Int} (h : |p.1 - q.1| ≤ 1) (h2 : |p.2 - q.2| ≤ 1) :
    octile p o ≤ (if p.1 = q.1 ∨ p.2 = q.2 then 1000 else 1414) + octile q o := by
  unfold octile
  dsimp only
  rw [abs_le] at h h2
  split_ifs <;> omega

theorem dir_facts {x : Int} {d : Int × Int × Nat} (h : d ∈ dirsDown x ∨ d ∈ dirsUp x) :
    |d.1| ≤ 1 ∧ |d.2.1| ≤ 1 ∧ d.2.2 = if d.1 = 0 ∨ d.2.1 = 0 then 1000 else 1414 := by
  unfold dirsDown downLR downRL dirsUp upLR upRL at h
  split_ifs at h <;> (simp only [List.mem_cons, List.not_mem_nil, or_false] at h; rcases h with (rfl | rfl | rfl | rfl) | (rfl | rfl | rfl | rfl) <;> decide)

/-- some target is at most the stored distance away -/
def Att (m : Map) (Z : Int → Int → Bool) (A : Arr) (x y : Int) : Prop := ∃ o : Int × Int, (¬ Inside m.W m.H o ∨ Z o.1 o.2 = true) ∧ octile (x, y) o ≤ A x y

theorem att_dir {m : Map} {Z : Int → Int → Bool} {A : Arr} {x y : Int} {d : Int × Int × Nat} (hd : d ∈ dirsDown x ∨ d ∈ dirsUp x)
    (h : A x y = d.2.2 + if m.outside (x + d.1) (y + d.2.1) then 0 else A (x + d.1) (y + d.2.1))
    (ih : ∀ x' y' : Int, 0 ≤ x' → x' < m.W → 0 ≤ y' → y' < m.H → A x' y' < A x y → Att m Z A x' y') : Att m Z A x y := by
  obtain ⟨f1, f2, f3⟩ := dir_facts hd
  have st : ∀ o, octile (x, y) o ≤ d.2.2 + octile (x + d.1, y + d.2.1) o := by
    intro o
    have := octile_step (p := (x, y)) (q := (x + d.1, y + d.2.1)) (o := o) (by simpa using f1) (by simpa using f2)
    rw [f3]
    simp only [left_eq_add] at this
    exact this
  have pos : 1000 ≤ d.2.2 := by rw [f3]; split_ifs <;> omega
  cases ho : m.outside (x + d.1) (y + d.2.1) with
  | true =>
    rw [ho, if_pos rfl] at h
    refine ⟨(x + d.1, y + d.2.1), .inl ?_, ?_⟩
    · intro hin
      have := outside_iff.mpr hin
      rw [ho] at this; cases this
    · have := st (x + d.1, y + d.2.1)
      have z : octile (x + d.1, y + d.2.1) (x + d.1, y + d.2.1) = 0 := by unfold octile; simp
      omega
  | false =>
    rw [ho, if_neg (by simp)] at h
    obtain ⟨a1, a2, a3, a4⟩ := outside_iff.mp ho
    obtain ⟨o, h1, h2⟩ := ih _ _ a1 a2 a3 a4 (by omega)
    exact ⟨o, h1, by have := st o; omega⟩

theorem att_down {m : Map} {Z : Int → Int → Bool} (hm : 0 < m.W ∧ 0 < m.H) {F : Arr} (e : DownEq m Z F) : ∀ v : Nat, ∀ x y : Int, 0 ≤ x → x < m.W → 0 ≤ y → y < m.H → F x y = v →
    Att m Z F x y := by
  intro v
  induction v using Nat.strongRecOn with
  | ind v ih =>
    intro x y h1 h2 h3 h4 hv
    have he := e x y h1 h2 h3 h4
    cases hz : Z x y with
    | true => exact ⟨(x, y), .inr hz, by unfold octile; simp⟩
    | false =>
      rw [hz, if_neg (by simp)] at he
      rcases relax_attained m x y F (dirsDown x) (1000 * min m.W m.H) with h | ⟨d, hd, h⟩
      · rw [h] at he
        by_cases hc : x + 1 ≤ min m.W m.H
        · refine ⟨(-1, y), .inl (by intro hin; have := hin.1; simp at this), ?_⟩
          rw [he]; unfold octile; dsimp only; omega
        · by_cases hc2 : m.W ≤ m.H
          · exact absurd h2 (by omega)
          · by_cases hc3 : y + 1 ≤ m.H
            · refine ⟨(x, -1), .inl (by intro hin; have := hin.2.2.1; simp at this), ?_⟩
              rw [he]; unfold octile; dsimp only; omega
            · omega
      · rw [h] at he
        exact att_dir (.inl hd) he (fun x' y' a1 a2 a3 a4 hlt => ih _ (by omega) x' y' a1 a2 a3 a4 rfl)

theorem att_up {m : Map} {Z : Int → Int → Bool} {F B : Arr} (hF : ∀ x y : Int, 0 ≤ x → x < m.W → 0 ≤ y → y < m.H → Att m Z F x y) (e : UpEq m F B) :
    ∀ v : Nat, ∀ x y : Int, 0 ≤ x → x < m.W → 0 ≤ y → y < m.H → B x y = v → Att m Z B x y := by
  intro v
  induction v using Nat.strongRecOn with
  | ind v ih =>
    intro x y h1 h2 h3 h4 hv
    have he := e x y h1 h2 h3 h4
    rcases relax_attained m x y B (dirsUp x) (F x y) with h | ⟨d, hd, h⟩
    · rw [h] at he
      obtain ⟨o, o1, o2⟩ := hF x y h1 h2 h3 h4
      exact ⟨o, o1, by omega⟩
    · rw [h] at he
      exact att_dir (.inr hd) he (fun x' y' a1 a2 a3 a4 hlt => ih _ (by omega) x' y' a1 a2 a3 a4 rfl)

/-! ## Upper bounds -/

/-- a sweep that passes values on along rows in direction `sx`, and within rows of parity `e` in direction `sy` -/
structure Sweep (W H : Nat) (G : Arr) (sx sy e : Int) : Prop where
  straight : ∀ x y : Int, 0 ≤ x → x < W → 0 ≤ y → y < H → 0 ≤ x - sx → x - sx < W → G x y ≤ 1000 + G (x - sx) y
  diag : ∀ x y : Int, 0 ≤ x → x < W → 0 ≤ y → y < H → 0 ≤ x - sx → x - sx < W → 0 ≤ y - sy → y - sy < H → G x y ≤ 1414 + G (x - sx) (y - sy)
  within : ∀ x y : Int, 0 ≤ x → x < W → 0 ≤ y → y < H → x % 2 = e → 0 ≤ y - sy → y - sy < H → G x y ≤ 1000 + G x (y - sy)

variable {W H : Nat} {G : Arr} {sx sy e : Int}

theorem sweep_straight (s : Sweep W H G sx sy e) (hx : sx = 1 ∨ sx = -1) (y : Int) (y0 : 0 ≤ y) (y1 : y < H) : ∀ (n : Nat) (x : Int), 0 ≤ x → x < W → 0 ≤ x + sx * n → x + sx * n < W →
    G (x + sx * n) y ≤ 1000 * n + G x y
  | 0, x, _, _, _, _ => by simp
  | n + 1, x, h0, h1, h2, h3 => by
    have e1 : x + sx * ((n + 1 : Nat) : Int) - sx = x + sx * n := by push_cast; ring
    have b0 : 0 ≤ x + sx * (n : Int) := by rcases hx with rfl | rfl <;> push_cast at h2 h3 ⊢ <;> omega
    have b1 : x + sx * (n : Int) < W := by rcases hx with rfl | rfl <;> push_cast at h2 h3 ⊢ <;> omega
    have := s.straight (x + sx * ((n + 1 : Nat) : Int)) y h2 h3 y0 y1 (by rw [e1]; exact b0) (by rw [e1]; exact b1)
    rw [e1] at this
    have := sweep_straight s hx y y0 y1 n x h0 h1 b0 b1
    omega

theorem sweep_diag (s : Sweep W H G sx sy e) (hx : sx = 1 ∨ sx = -1) (hy : sy = 1 ∨ sy = -1) : ∀ (n : Nat) (x y : Int), 0 ≤ x → x < W → 0 ≤ y → y < H →
    0 ≤ x + sx * n → x + sx * n < W → 0 ≤ y + sy * n → y + sy * n < H → G (x + sx * n) (y + sy * n) ≤ 1414 * n + G x y
  | 0, x, y, _, _, _, _, _, _, _, _ => by simp
  | n + 1, x, y, h0, h1, k0, k1, h2, h3, k2, k3 => by
    have e1 : x + sx * ((n + 1 : Nat) : Int) - sx = x + sx * n := by push_cast; ring
    have e2 : y + sy * ((n + 1 : Nat) : Int) - sy = y + sy * n := by push_cast; ring
    have b0 : 0 ≤ x + sx * (n : Int) := by rcases hx with rfl | rfl <;> push_cast at h2 h3 ⊢ <;> omega
    have b1 : x + sx * (n : Int) < W := by rcases hx with rfl | rfl <;> push_cast at h2 h3 ⊢ <;> omega
    have c0 : 0 ≤ y + sy * (n : Int) := by rcases hy with rfl | rfl <;> push_cast at k2 k3 ⊢ <;> omega
    have c1 : y + sy * (n : Int) < H := by rcases hy with rfl | rfl <;> push_cast at k2 k3 ⊢ <;> omega
    have := s.diag (x + sx * ((n + 1 : Nat) : Int)) (y + sy * ((n + 1 : Nat) : Int)) h2 h3 k2 k3 (by rw [e1]; exact b0) (by rw [e1]; exact b1) (by rw [e2]; exact c0) (by rw [e2]; exact c1)
    rw [e1, e2] at this
    have := sweep_diag s hx hy n x y h0 h1 k0 k1 b0 b1 c0 c1
    omega

theorem sweep_within (s : Sweep W H G sx sy e) (hy : sy = 1 ∨ sy = -1) (x : Int) (x0 : 0 ≤ x) (x1 : x < W) (he : x % 2 = e) : ∀ (n : Nat) (y : Int), 0 ≤ y → y < H →
    0 ≤ y + sy * n → y + sy * n < H → G x (y + sy * n) ≤ 1000 * n + G x y
  | 0, y, _, _, _, _ => by simp
  | n + 1, y, h0, h1, h2, h3 => by
    have e1 : y + sy * ((n + 1 : Nat) : Int) - sy = y + sy * n := by push_cast; ring
    have b0 : 0 ≤ y + sy * (n : Int) := by rcases hy with rfl | rfl <;> push_cast at h2 h3 ⊢ <;> omega
    have b1 : y + sy * (n : Int) < H := by rcases hy with rfl | rfl <;> push_cast at h2 h3 ⊢ <;> omega
    have := s.within x (y + sy * ((n + 1 : Nat) : Int)) x0 x1 h2 h3 he (by rw [e1]; exact b0) (by rw [e1]; exact b1)
    rw [e1] at this
    have := sweep_within s hy x x0 x1 he n y h0 h1 b0 b1
    omega

/-- values get from `o` to `o + (sx a, sy b)` in one sweep, unless both are in one row of the wrong parity -/
theorem sweep_all (s : Sweep W H G sx sy e) (hx : sx = 1 ∨ sx = -1) (hy : sy = 1 ∨ sy = -1) (he : e = 0 ∨ e = 1) {x y : Int} (a b : Nat) (x0 : 0 ≤ x) (x1 : x < W)
    (y0 : 0 ≤ y) (y1 : y < H) (x2 : 0 ≤ x + sx * a) (x3 : x + sx * a < W) (y2 : 0 ≤ y + sy * b) (y3 : y + sy * b < H) (hc : 0 < a ∨ x % 2 = e) :
    G (x + sx * a) (y + sy * b) ≤ 1414 * min a b + 1000 * (max a b - min a b) + G x y := by
  by_cases hab : b ≤ a
  · obtain ⟨k, rfl⟩ := Nat.le.dest hab
    have e1 : x + sx * ((b + k : Nat) : Int) = (x + sx * b) + sx * k := by push_cast; ring
    rw [e1] at x2 x3 ⊢
    have b0 : 0 ≤ x + sx * (b : Int) := by rcases hx with rfl | rfl <;> omega
    have b1 : x + sx * (b : Int) < W := by rcases hx with rfl | rfl <;> omega
    have s1 := sweep_diag s hx hy b x y x0 x1 y0 y1 b0 b1 y2 y3
    have s2 := sweep_straight s hx (y + sy * b) y2 y3 k (x + sx * b) b0 b1 x2 x3
    omega
  · obtain ⟨k, rfl⟩ := Nat.le.dest (show a ≤ b by omega)
    have e1 : y + sy * ((a + k : Nat) : Int) = (y + sy * k) + sy * a := by push_cast; ring
    by_cases hpar : x % 2 = e
    · rw [e1] at y2 y3 ⊢
      have b0 : 0 ≤ y + sy * (k : Int) := by rcases hy with rfl | rfl <;> omega
      have b1 : y + sy * (k : Int) < H := by rcases hy with rfl | rfl <;> omega
      have s1 := sweep_within s hy x x0 x1 hpar k y y0 y1 b0 b1
      have s2 := sweep_diag s hx hy a x (y + sy * k) x0 x1 b0 b1 x2 x3 y2 y3
      omega
    · have ha : 0 < a := by rcases hc with h | h; exact h; exact absurd h hpar
      obtain ⟨c, rfl⟩ : ∃ c, a = 1 + c := ⟨a - 1, by omega⟩
      have e2 : y + sy * ((1 + c + k : Nat) : Int) = ((y + sy * (1 : Nat)) + sy * k) + sy * c := by push_cast; ring
      have e3 : x + sx * ((1 + c : Nat) : Int) = (x + sx * (1 : Nat)) + sx * c := by push_cast; ring
      rw [e2] at y2 y3 ⊢
      rw [e3] at x2 x3 ⊢
      have p0 : 0 ≤ x + sx * ((1 : Nat) : Int) := by rcases hx with rfl | rfl <;> omega
      have p1 : x + sx * ((1 : Nat) : Int) < W := by rcases hx with rfl | rfl <;> omega
      have q0 : 0 ≤ y + sy * ((1 : Nat) : Int) := by rcases hy with rfl | rfl <;> omega
      have q1 : y + sy * ((1 : Nat) : Int) < H := by rcases hy with rfl | rfl <;> omega
      have r0 : 0 ≤ (y + sy * ((1 : Nat) : Int)) + sy * k := by rcases hy with rfl | rfl <;> omega
      have r1 : (y + sy * ((1 : Nat) : Int)) + sy * k < H := by rcases hy with rfl | rfl <;> omega
      have par : (x + sx * ((1 : Nat) : Int)) % 2 = e := by rcases hx with rfl | rfl <;> rcases he with rfl | rfl <;> omega
      have s1 := sweep_diag s hx hy 1 x y x0 x1 y0 y1 p0 p1 q0 q1
      have s2 := sweep_within s hy (x + sx * (1 : Nat)) p0 p1 par k (y + sy * (1 : Nat)) q0 q1 r0 r1
      have s3 := sweep_diag s hx hy c (x + sx * (1 : Nat)) ((y + sy * (1 : Nat)) + sy * k) p0 p1 r0 r1 x2 x3 y2 y3
      omega

theorem relax_to {m : Map} {x y : Int} {A : Arr} {dirs : List (Int × Int × Nat)} {v : Nat} (d : Int × Int × Nat) (hd : d ∈ dirs) {x' y' : Int} (hx : x + d.1 = x') (hy : y + d.2.1 = y')
    (a1 : 0 ≤ x') (a2 : x' < m.W) (a3 : 0 ≤ y') (a4 : y' < m.H) : m.relax x y A dirs v ≤ d.2.2 + A x' y' := by
  have := relax_le_dir m x y A dirs v d hd
  rw [hx, hy, outside_iff.mpr ⟨a1, a2, a3, a4⟩] at this
  simpa using this

theorem relax_out {m : Map} {x y : Int} {A : Arr} {dirs : List (Int × Int × Nat)} {v : Nat} (d : Int × Int × Nat) (hd : d ∈ dirs)
    (ho : m.outside (x + d.1) (y + d.2.1) = true) : m.relax x y A dirs v ≤ d.2.2 := by
  have := relax_le_dir m x y A dirs v d hd
  rw [ho] at this
  simpa using this

theorem downEq_le {m : Map} {Z : Int → Int → Bool} {F : Arr} (e : DownEq m Z F) {x y : Int} (h1 : 0 ≤ x) (h2 : x < m.W) (h3 : 0 ≤ y) (h4 : y < m.H) :
    F x y ≤ m.relax x y F (dirsDown x) (1000 * min m.W m.H) := by
  rw [e x y h1 h2 h3 h4]
  split_ifs
  · omega
  · exact Nat.le_refl _

theorem down_sweep {m : Map} {Z : Int → Int → Bool} {F : Arr} (e : DownEq m Z F) : Sweep m.W m.H F 1 1 0 ∧ Sweep m.W m.H F 1 (-1) 1 := by
  have mem : ∀ x : Int, ((-1, -1, 1414) : Int × Int × Nat) ∈ dirsDown x ∧ ((-1, 0, 1000) : Int × Int × Nat) ∈ dirsDown x ∧ ((-1, 1, 1414) : Int × Int × Nat) ∈ dirsDown x := by
    intro x; unfold dirsDown downLR downRL; split_ifs <;> simp
  constructor
  · refine ⟨?_, ?_, ?_⟩
    · intro x y a1 a2 a3 a4 b1 b2
      exact Nat.le_trans (downEq_le e a1 a2 a3 a4) (relax_to _ (mem x).2.1 (by ring) (by ring) b1 b2 a3 a4)
    · intro x y a1 a2 a3 a4 b1 b2 b3 b4
      exact Nat.le_trans (downEq_le e a1 a2 a3 a4) (relax_to _ (mem x).1 (by ring) (by ring) b1 b2 b3 b4)
    · intro x y a1 a2 a3 a4 hp b3 b4
      refine Nat.le_trans (downEq_le e a1 a2 a3 a4) (relax_to (0, -1, 1000) ?_ (by simp) (by ring) a1 a2 b3 b4)
      unfold dirsDown downLR; rw [if_pos hp]; simp
  · refine ⟨?_, ?_, ?_⟩
    · intro x y a1 a2 a3 a4 b1 b2
      exact Nat.le_trans (downEq_le e a1 a2 a3 a4) (relax_to _ (mem x).2.1 (by ring) (by ring) b1 b2 a3 a4)
    · intro x y a1 a2 a3 a4 b1 b2 b3 b4
      exact Nat.le_trans (downEq_le e a1 a2 a3 a4) (relax_to _ (mem x).2.2 (by ring) (by ring) b1 b2 b3 b4)
    · intro x y a1 a2 a3 a4 hp b3 b4
      refine Nat.le_trans (downEq_le e a1 a2 a3 a4) (relax_to (0, 1, 1000) ?_ (by simp) (by ring) a1 a2 b3 b4)
      unfold dirsDown downRL; rw [if_neg (by omega)]; simp

theorem up_sweep {m : Map} {F B : Arr} (e : UpEq m F B) : Sweep m.W m.H B (-1) (-1) 0 ∧ Sweep m.W m.H B (-1) 1 1 := by
  have mem : ∀ x : Int, ((1, -1, 1414) : Int × Int × Nat) ∈ dirsUp x ∧ ((1, 0, 1000) : Int × Int × Nat) ∈ dirsUp x ∧ ((1, 1, 1414) : Int × Int × Nat) ∈ dirsUp x := by
    intro x; unfold dirsUp upLR upRL; split_ifs <;> simp
  constructor
  · refine ⟨?_, ?_, ?_⟩
    · intro x y a1 a2 a3 a4 b1 b2
      rw [e x y a1 a2 a3 a4]; exact relax_to _ (mem x).2.1 (by ring) (by ring) b1 b2 a3 a4
    · intro x y a1 a2 a3 a4 b1 b2 b3 b4
      rw [e x y a1 a2 a3 a4]; exact relax_to _ (mem x).2.2 (by ring) (by ring) b1 b2 b3 b4
    · intro x y a1 a2 a3 a4 hp b3 b4
      rw [e x y a1 a2 a3 a4]; refine relax_to (0, 1, 1000) ?_ (by simp) (by ring) a1 a2 b3 b4
      unfold dirsUp upRL; rw [if_pos hp]; simp
  · refine ⟨?_, ?_, ?_⟩
    · intro x y a1 a2 a3 a4 b1 b2
      rw [e x y a1 a2 a3 a4]; exact relax_to _ (mem x).2.1 (by ring) (by ring) b1 b2 a3 a4
    · intro x y a1 a2 a3 a4 b1 b2 b3 b4
      rw [e x y a1 a2 a3 a4]; exact relax_to _ (mem x).1 (by ring) (by ring) b1 b2 b3 b4
    · intro x y a1 a2 a3 a4 hp b3 b4
      rw [e x y a1 a2 a3 a4]; refine relax_to (0, -1, 1000) ?_ (by simp) (by ring) a1 a2 b3 b4
      unfold dirsUp upLR; rw [if_neg (by omega)]; simp

/-- the border -/
theorem border {m : Map} {Z : Int → Int → Bool} {F B : Arr} (hF : DownEq m Z F) (hB : UpEq m F B) {x y : Int} (x0 : 0 ≤ x) (x1 : x < m.W) (y0 : 0 ≤ y) (y1 : y < m.H) :
    (B x y : Int) ≤ 1000 * (x + 1) ∧ (B x y : Int) ≤ 1000 * (m.W - x) ∧ (B x y : Int) ≤ 1000 * (y + 1) ∧ (B x y : Int) ≤ 1000 * (m.H - y) := by
  have mono : ∀ x y : Int, 0 ≤ x → x < m.W → 0 ≤ y → y < m.H → B x y ≤ F x y := by
    intro x y a1 a2 a3 a4; rw [hB x y a1 a2 a3 a4]; exact relax_le ..
  obtain ⟨d1, d2⟩ := down_sweep hF
  obtain ⟨u1, u2⟩ := up_sweep hB
  have out : ∀ a b : Int, (a < 0 ∨ (m.W : Int) ≤ a ∨ b < 0 ∨ (m.H : Int) ≤ b) → m.outside a b = true := by
    intro a b h; unfold Map.outside; exact decide_eq_true h
  have f0 : F 0 y ≤ 1000 := Nat.le_trans (downEq_le hF (by omega) (by omega) y0 y1)
    (relax_out (-1, 0, 1000) (by unfold dirsDown downLR; simp) (out _ _ (by left; simp)))
  have b0 : B (m.W - 1) y ≤ 1000 := by
    rw [hB _ y (by omega) (by omega) y0 y1]
    refine relax_out (1, 0, 1000) (by unfold dirsUp upRL upLR; split_ifs <;> simp) (out _ _ (by right; left; simp))
  refine ⟨?_, ?_, ?_, ?_⟩
  · have := sweep_straight d1 (.inl rfl) y y0 y1 x.toNat 0 (by omega) (by omega) (by omega) (by omega)
    have e1 : (0 : Int) + 1 * (x.toNat : Int) = x := by omega
    rw [e1] at this
    have := mono x y x0 x1 y0 y1
    omega
  · have := sweep_straight u1 (.inr rfl) y y0 y1 (m.W - 1 - x.toNat) (m.W - 1) (by omega) (by omega) (by omega) (by omega)
    have e1 : (m.W : Int) - 1 + -1 * ((m.W - 1 - x.toNat : Nat) : Int) = x := by omega
    rw [e1] at this
    omega
  · rcases Int.emod_two_eq_zero_or_one x with hp | hp
    · have c0 : F x 0 ≤ 1000 := Nat.le_trans (downEq_le hF x0 x1 (by omega) (by omega))
        (relax_out (0, -1, 1000) (by unfold dirsDown downLR; rw [if_pos hp]; simp) (out _ _ (by simp)))
      have := sweep_within d1 (.inl rfl) x x0 x1 hp y.toNat 0 (by omega) (by omega) (by omega) (by omega)
      have e1 : (0 : Int) + 1 * (y.toNat : Int) = y := by omega
      rw [e1] at this
      have := mono x y x0 x1 y0 y1
      omega
    · have c0 : B x 0 ≤ 1000 := by
        rw [hB x 0 x0 x1 (by omega) (by omega)]
        refine relax_out (0, -1, 1000) (by unfold dirsUp upLR; rw [if_neg (by omega)]; simp) (out _ _ (by simp))
      have := sweep_within u2 (.inl rfl) x x0 x1 hp y.toNat 0 (by omega) (by omega) (by omega) (by omega)
      have e1 : (0 : Int) + 1 * (y.toNat : Int) = y := by omega
      rw [e1] at this
      omega
  · have e1 : (m.H : Int) - 1 + -1 * ((m.H - 1 - y.toNat : Nat) : Int) = y := by omega
    rcases Int.emod_two_eq_zero_or_one x with hp | hp
    · have c0 : B x (m.H - 1) ≤ 1000 := by
        rw [hB x _ x0 x1 (by omega) (by omega)]
        refine relax_out (0, 1, 1000) (by unfold dirsUp upRL; rw [if_pos hp]; simp) (out _ _ (by simp))
      have := sweep_within u1 (.inr rfl) x x0 x1 hp (m.H - 1 - y.toNat) (m.H - 1) (by omega) (by omega) (by omega) (by omega)
      rw [e1] at this
      omega
    · have c0 : F x (m.H - 1) ≤ 1000 := Nat.le_trans (downEq_le hF x0 x1 (by omega) (by omega))
        (relax_out (0, 1, 1000) (by unfold dirsDown downRL; rw [if_neg (by omega)]; simp) (out _ _ (by simp)))
      have := sweep_within d2 (.inr rfl) x x0 x1 hp (m.H - 1 - y.toNat) (m.H - 1) (by omega) (by omega) (by omega) (by omega)
      rw [e1] at this
      have := mono x y x0 x1 y0 y1
      omega

/-- every target bounds the stored distance -/
theorem upper {m : Map} {Z : Int → Int → Bool} {F B : Arr} (hF : DownEq m Z F) (hB : UpEq m F B) {x y : Int} (x0 : 0 ≤ x) (x1 : x < m.W) (y0 : 0 ≤ y) (y1 : y < m.H)
    (o : Int × Int) (ho : ¬ Inside m.W m.H o ∨ Z o.1 o.2 = true) : B x y ≤ octile (x, y) o := by
  have mono : ∀ x y : Int, 0 ≤ x → x < m.W → 0 ≤ y → y < m.H → B x y ≤ F x y := by
    intro x y a1 a2 a3 a4; rw [hB x y a1 a2 a3 a4]; exact relax_le ..
  by_cases hin : Inside m.W m.H o
  · have hz : Z o.1 o.2 = true := by rcases ho with h | h; exact absurd hin h; exact h
    obtain ⟨o0, o1, p0, p1⟩ := hin
    have fz : F o.1 o.2 = 0 := by rw [hF _ _ o0 o1 p0 p1, if_pos hz]
    have bz : B o.1 o.2 = 0 := by have := mono o.1 o.2 o0 o1 p0 p1; omega
    obtain ⟨d1, d2⟩ := down_sweep hF
    obtain ⟨u1, u2⟩ := up_sweep hB
    have oc : octile (x, y) o = 1414 * min (x - o.1).natAbs (y - o.2).natAbs + 1000 * (max (x - o.1).natAbs (y - o.2).natAbs - min (x - o.1).natAbs (y - o.2).natAbs) := rfl
    rw [oc]
    have up : ∀ {sy e : Int}, Sweep m.W m.H B (-1) sy e → (sy = 1 ∨ sy = -1) → (e = 0 ∨ e = 1) → x ≤ o.1 → y = o.2 + sy * (y - o.2).natAbs → (x < o.1 ∨ o.1 % 2 = e) →
        B x y ≤ 1414 * min (x - o.1).natAbs (y - o.2).natAbs + 1000 * (max (x - o.1).natAbs (y - o.2).natAbs - min (x - o.1).natAbs (y - o.2).natAbs) := by
      intro sy e s hy he hx hyy hc
      have ex : o.1 + -1 * ((x - o.1).natAbs : Int) = x := by omega
      have := sweep_all s (.inr rfl) hy he (x := o.1) (y := o.2) (x - o.1).natAbs (y - o.2).natAbs o0 o1 p0 p1 (by omega) (by omega) (by rw [← hyy]; exact y0) (by rw [← hyy]; exact y1)
        (by rcases hc with h | h; left; omega; exact .inr h)
      rw [ex, ← hyy, bz] at this
      exact this
    have dn : ∀ {sy e : Int}, Sweep m.W m.H F 1 sy e → (sy = 1 ∨ sy = -1) → (e = 0 ∨ e = 1) → o.1 ≤ x → y = o.2 + sy * (y - o.2).natAbs → (o.1 < x ∨ o.1 % 2 = e) →
        B x y ≤ 1414 * min (x - o.1).natAbs (y - o.2).natAbs + 1000 * (max (x - o.1).natAbs (y - o.2).natAbs - min (x - o.1).natAbs (y - o.2).natAbs) := by
      intro sy e s hy he hx hyy hc
      have ex : o.1 + 1 * ((x - o.1).natAbs : Int) = x := by omega
      have := sweep_all s (.inl rfl) hy he (x := o.1) (y := o.2) (x - o.1).natAbs (y - o.2).natAbs o0 o1 p0 p1 (by omega) (by omega) (by rw [← hyy]; exact y0) (by rw [← hyy]; exact y1)
        (by rcases hc with h | h; left; omega; exact .inr h)
      rw [ex, ← hyy, fz] at this
      exact Nat.le_trans (mono x y x0 x1 y0 y1) this
    rcases lt_trichotomy x o.1 with hx | hx | hx
    · rcases le_total o.2 y with hy | hy
      · exact up u2 (.inl rfl) (.inr rfl) (by omega) (by omega) (.inl hx)
      · exact up u1 (.inr rfl) (.inl rfl) (by omega) (by omega) (.inl hx)
    · rcases Int.emod_two_eq_zero_or_one o.1 with hp | hp
      · rcases le_total o.2 y with hy | hy
        · exact dn d1 (.inl rfl) (.inl rfl) (by omega) (by omega) (.inr hp)
        · exact up u1 (.inr rfl) (.inl rfl) (by omega) (by omega) (.inr hp)
      · rcases le_total o.2 y with hy | hy
        · exact up u2 (.inl rfl) (.inr rfl) (by omega) (by omega) (.inr hp)
        · exact dn d2 (.inr rfl) (.inr rfl) (by omega) (by omega) (.inr hp)
    · rcases le_total o.2 y with hy | hy
      · exact dn d1 (.inl rfl) (.inl rfl) (by omega) (by omega) (.inl hx)
      · exact dn d2 (.inr rfl) (.inr rfl) (by omega) (by omega) (.inl hx)
  · obtain ⟨b1, b2, b3, b4⟩ := border hF hB x0 x1 y0 y1
    unfold Inside at hin
    unfold octile
    dsimp only
    omega

/-- the final values are the distances -/
theorem values {m : Map} {Z : Int → Int → Bool} (A : Arr) {x y : Int} (x0 : 0 ≤ x) (x1 : x < m.W) (y0 : 0 ≤ y) (y1 : y < m.H) :
    IsNearest m.W m.H (fun o => Z o.1 o.2 = true) (x, y) ((desc m.W).foldl m.uRow ((asc m.W).foldl (m.dRow Z) A) x y) := by
  have hm : 0 < m.W ∧ 0 < m.H := by omega
  have hF := downEq m Z hm A
  have hB := upEq m ((asc m.W).foldl (m.dRow Z) A)
  obtain ⟨o, o1, o2⟩ := att_up (fun x y a1 a2 a3 a4 => att_down hm hF _ x y a1 a2 a3 a4 rfl) hB _ x y x0 x1 y0 y1 rfl
  refine ⟨⟨o, o1, Nat.le_antisymm o2 (upper hF hB x0 x1 y0 y1 o o1)⟩, fun o ho => upper hF hB x0 x1 y0 y1 o ho⟩

end Sbpl.Dist
