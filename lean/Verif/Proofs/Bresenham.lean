import Verif.Model.Utils
import Mathlib.Tactic.Linarith
import Mathlib.Tactic.Ring
import Mathlib.Tactic.SplitIfs
import Mathlib.Algebra.Order.Ring.Abs
/-! # Bresenham lines -/

namespace Sbpl
namespace Utils

/-- rounded `m * i / n`, ties upward iff `up` -/
def kf (up : Bool) (m n i : Int) : Int := if up then (2 * m * i + n) / (2 * n) else (2 * m * i + n - 1) / (2 * n)

theorem kf_bounds {m n : Int} (hn : 0 < n) (up : Bool) (i : Int) :
    2 * m * i - n ≤ 2 * n * kf up m n i ∧ 2 * n * kf up m n i ≤ 2 * m * i + n ∧
    (up = true → 2 * m * i - n < 2 * n * kf up m n i) ∧ (up = false → 2 * n * kf up m n i < 2 * m * i + n) := by
  cases up
  · simp only [kf, Bool.false_eq_true, if_false]
    have h1 := Int.emod_add_mul_ediv (2 * m * i + n - 1) (2 * n)
    have h2 := Int.emod_nonneg (2 * m * i + n - 1) (b := 2 * n) (by omega)
    have h3 := Int.emod_lt_of_pos (2 * m * i + n - 1) (b := 2 * n) (by omega)
    generalize (2 * m * i + n - 1) / (2 * n) = q at *
    generalize (2 * m * i + n - 1) % (2 * n) = r at *
    refine ⟨?_, ?_, ?_, ?_⟩ <;> intros <;> first | linarith | (simp at *)
  · simp only [kf, if_true]
    have h1 := Int.emod_add_mul_ediv (2 * m * i + n) (2 * n)
    have h2 := Int.emod_nonneg (2 * m * i + n) (b := 2 * n) (by omega)
    have h3 := Int.emod_lt_of_pos (2 * m * i + n) (b := 2 * n) (by omega)
    generalize (2 * m * i + n) / (2 * n) = q at *
    generalize (2 * m * i + n) % (2 * n) = r at *
    refine ⟨?_, ?_, ?_, ?_⟩ <;> intros <;> first | linarith | (simp at *)

theorem kf_unique {m n : Int} (hn : 0 < n) (up : Bool) (i k : Int)
    (h1 : 2 * m * i - n ≤ 2 * n * k) (h2 : 2 * n * k ≤ 2 * m * i + n)
    (h3 : up = true → 2 * m * i - n < 2 * n * k) (h4 : up = false → 2 * n * k < 2 * m * i + n) :
    kf up m n i = k := by
  obtain ⟨b1, b2, b3, b4⟩ := kf_bounds (m := m) hn up i
  generalize kf up m n i = q at *
  have key : 2 * n * q < 2 * n * (k + 1) ∧ 2 * n * k < 2 * n * (q + 1) := by
    cases up
    · have := b4 rfl; have := h4 rfl
      constructor <;> linarith
    · have := b3 rfl; have := h3 rfl
      constructor <;> linarith
  have a1 := lt_of_mul_lt_mul_left key.1 (by omega)
  have a2 := lt_of_mul_lt_mul_left key.2 (by omega)
  omega

/-- What `getParams` establishes. -/
structure Bres.Ok (b : Bres) (m n : Int) : Prop where
  inc : b.inc = 1 ∨ b.inc = -1
  m0 : 0 ≤ m
  mn : m ≤ n
  e : b.incrE = 2 * m
  ne : b.incrNE = 2 * (m - n)
  x2 : b.X2 = b.X1 + b.inc * n
  y2 : b.Y2 = b.Y1 + b.inc * m

/-- the state after `i` steps, `k` of them diagonal -/
def Bres.at_ (b : Bres) (m n i k : Int) : Bres :=
  { b with xi := b.X1 + b.inc * i, yi := b.Y1 + b.inc * k, dTerm := 2 * m - n + 2 * m * i - 2 * n * k }

def Bres.up (b : Bres) : Bool := decide (b.inc = 1)

/-- the point visited at step `i` -/
def Bres.pt (b : Bres) (m n i : Int) : Int × Int := curPoint (b.at_ m n i (kf b.up m n i))

theorem next_at {b : Bres} {m n : Int} (ok : b.Ok m n) {i : Int} (h0 : 0 ≤ i) (hi : i < n) :
    nextPoint (b.at_ m n i (kf b.up m n i)) = some (b.at_ m n (i + 1) (kf b.up m n (i + 1))) := by
  have hn : 0 < n := by omega
  have hx : (b.at_ m n i (kf b.up m n i)).xi ≠ (b.at_ m n i (kf b.up m n i)).X2 := by
    simp only [Bres.at_, ok.x2]
    rcases ok.inc with h | h <;> rw [h] <;> omega
  obtain ⟨b1, b2, b3, b4⟩ := kf_bounds (m := m) hn b.up i
  have m0 := ok.m0
  have mn := ok.mn
  have hk0 : kf b.up m n i = kf b.up m n i := rfl
  revert hx b1 b2 b3 b4
  generalize kf b.up m n i = k
  intro hx b1 b2 b3 b4
  by_cases hd : 2 * m - n + 2 * m * i - 2 * n * k < 0 ∨ (b.inc < 0 ∧ 2 * m - n + 2 * m * i - 2 * n * k ≤ 0)
  · have hk' : kf b.up m n (i + 1) = k := by
      apply kf_unique hn
      · rcases hd with h | ⟨_, h⟩ <;> linarith
      · linarith
      · intro hu
        have hi1 : b.inc = 1 := by simpa [Bres.up] using hu
        rcases hd with h | ⟨h', h⟩
        · linarith
        · omega
      · intro hu; have := b4 hu; linarith
    unfold nextPoint
    rw [if_neg hx, hk']
    have hd' : ((b.at_ m n i k).dTerm < 0 ∨ (b.at_ m n i k).inc < 0 ∧ (b.at_ m n i k).dTerm ≤ 0) := hd
    simp only
    rw [if_pos hd']
    simp only [Bres.at_, ok.e]
    refine congrArg some ?_
    rw [Bres.mk.injEq]
    simp only [true_and, and_true]
    constructor <;> ring
  · have hk' : kf b.up m n (i + 1) = k + 1 := by
      have hd0 : ¬ (2 * m - n + 2 * m * i - 2 * n * k < 0) := fun h => hd (Or.inl h)
      apply kf_unique hn
      · linarith
      · linarith
      · intro hu
        have := b3 hu
        linarith
      · intro hu
        have h1 : ¬ b.inc = 1 := by simpa [Bres.up] using hu
        have h2 : b.inc < 0 := by rcases ok.inc with h | h <;> omega
        have : ¬ (2 * m - n + 2 * m * i - 2 * n * k ≤ 0) := fun h => hd (Or.inr ⟨h2, h⟩)
        linarith
    unfold nextPoint
    rw [if_neg hx, hk']
    have hd' : ¬ ((b.at_ m n i k).dTerm < 0 ∨ (b.at_ m n i k).inc < 0 ∧ (b.at_ m n i k).dTerm ≤ 0) := hd
    simp only
    rw [if_neg hd']
    simp only [Bres.at_, ok.ne]
    refine congrArg some ?_
    rw [Bres.mk.injEq]
    simp only [true_and, and_true]
    refine ⟨?_, ?_, ?_⟩ <;> ring

theorem next_end {b : Bres} {m n : Int} (ok : b.Ok m n) (k : Int) : nextPoint (b.at_ m n n k) = none := by
  unfold nextPoint
  rw [if_pos]
  simp only [Bres.at_, ok.x2]

/-- the whole run -/
theorem line_run {b : Bres} {m : Int} {n : Nat} (ok : b.Ok m n) : ∀ (j i fuel : Nat), i + j = n → j < fuel →
    linePoints fuel (b.at_ m n i (kf b.up m n i)) = some ((List.range' i (j + 1)).map fun t : Nat => b.pt m n t) := by
  intro j
  induction j with
  | zero =>
    intro i fuel h hf
    obtain ⟨f, rfl⟩ : ∃ f, fuel = f + 1 := ⟨fuel - 1, by omega⟩
    have : i = n := by omega
    subst this
    simp [linePoints, next_end ok, Bres.pt]
  | succ j ih =>
    intro i fuel h hf
    obtain ⟨f, rfl⟩ : ∃ f, fuel = f + 1 := ⟨fuel - 1, by omega⟩
    have := ih (i + 1) f (by omega) (by omega)
    rw [linePoints, next_at ok (by omega) (by omega)]
    push_cast at this
    simp only [this]
    rw [List.range'_succ (n := j + 1)]
    simp [Bres.pt]

/-! ### The parameters -/

/-- major and minor extent -/
def major (p q : Int × Int) : Nat := max (q.1 - p.1).natAbs (q.2 - p.2).natAbs
def minor (p q : Int × Int) : Nat := min (q.1 - p.1).natAbs (q.2 - p.2).natAbs

theorem pos_of_mul {a b : Int} (h : ¬ a * b < 0) (hb : b ≠ 0) : (0 < b → 0 ≤ a) ∧ (b < 0 → a ≤ 0) := by
  constructor
  · intro hb
    by_contra hc
    exact h (mul_neg_of_neg_of_pos (by omega) hb)
  · intro hb
    by_contra hc
    exact h (mul_neg_of_pos_of_neg (by omega) hb)

theorem neg_of_mul {a b : Int} (h : a * b < 0) : (a < 0 ∧ 0 < b) ∨ (0 < a ∧ b < 0) := by
  rcases mul_neg_iff.mp h with h | h
  · exact Or.inr h
  · exact Or.inl h

theorem params_ok (p q : Int × Int) : (getParams p.1 p.2 q.1 q.2).Ok (minor p q) (major p q) ∧
    getParams p.1 p.2 q.1 q.2 = (getParams p.1 p.2 q.1 q.2).at_ (minor p q) (major p q) 0 0 ∧
    curPoint (getParams p.1 p.2 q.1 q.2) = p := by
  obtain ⟨px, py⟩ := p
  obtain ⟨qx, qy⟩ := q
  have hs : ((qx - px) * (qy - py) < 0 → ((qx < px ∧ py < qy) ∨ (px < qx ∧ qy < py))) := by
    intro h
    rcases neg_of_mul h with h | h <;> omega
  have hs' : (¬ (qx - px) * (qy - py) < 0 → ((px ≤ qx ∧ py ≤ qy) ∨ (qx ≤ px ∧ qy ≤ py))) := by
    intro h
    by_cases hb : qy - py = 0
    · omega
    · have := pos_of_mul h hb
      omega
  simp only [getParams, minor, major, gt_iff_lt]
  by_cases hU : |qx - px| < |qy - py| <;> by_cases hF : (qx - px) * (qy - py) < 0
  all_goals
    simp only [hU, hF, decide_true, decide_false, if_true, if_false, Bool.false_eq_true]
    first | have hF' := hs hF | have hF' := hs' hF
    have hU' : (qx - px).natAbs < (qy - py).natAbs ∨ ¬ (qx - px).natAbs < (qy - py).natAbs := em _
    have hUU : |qx - px| < |qy - py| ↔ (qx - px).natAbs < (qy - py).natAbs := by
      rw [Int.abs_eq_natAbs, Int.abs_eq_natAbs]; omega
    rw [hUU] at hU
    refine ⟨⟨?_, ?_, ?_, ?_, ?_, ?_, ?_⟩, ?_, ?_⟩
    all_goals first
      | (simp only []; split_ifs <;> omega)
      | (simp [curPoint]; done)
      | (simp only [Bres.at_, Bres.mk.injEq, true_and, and_true]
         split_ifs <;> refine ⟨?_, ?_, ?_⟩ <;> omega)
      | skip

end Utils
end Sbpl
