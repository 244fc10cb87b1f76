import Verif.Spec.RobArm
import Mathlib.Analysis.SpecialFunctions.Trigonometric.Inverse
/-!
# DiscretizeAngles with real cosines and sines (C115)
-/

namespace Sbpl.ArmTrigProps
open RobArm ArmSpec

/-- A link of the arm with exact arithmetic: the angle step and the number of values are computed by DiscretizeAngles, positions with cos and sin.  `pi` is PI_CONST.
The last condition excludes the hairline case in which 2 pi / delta exceeds a whole number by less than 10^-8, where (int)(2 pi / delta + 0.99999999) does not round up. -/
structure RealLink (cell pi : ℝ) (l : Link ℝ) : Prop where
  len : cell / 2 ≤ l.len
  delta : l.delta = (discretize pi (Real.arcsin (cell / 2 / l.len))).1
  vals : (l.vals : Int) = (discretize pi (Real.arcsin (cell / 2 / l.len))).2
  cs : ∀ k : Nat, l.cs k = Real.cos (k * l.delta)
  sn : ∀ k : Nat, l.sn k = Real.sin (k * l.delta)
  turn : 2 * Real.pi ≤ l.vals * l.delta

theorem chord {len a b d : ℝ} (hl : 0 ≤ len) (hd : d ≤ Real.pi) (h0 : 0 ≤ a - b) (h1 : a - b ≤ d) :
    |len * Real.cos a - len * Real.cos b| ≤ 2 * len * Real.sin (d / 2) ∧ |len * Real.sin a - len * Real.sin b| ≤ 2 * len * Real.sin (d / 2) := by
  have hs0 : 0 ≤ Real.sin ((a - b) / 2) := Real.sin_nonneg_of_nonneg_of_le_pi (by linarith) (by linarith)
  have hs1 : Real.sin ((a - b) / 2) ≤ Real.sin (d / 2) := Real.sin_le_sin_of_le_of_le_pi_div_two (by linarith) (by linarith) (by linarith)
  have key : ∀ t : ℝ, |t| ≤ 1 → len * (2 * Real.sin ((a - b) / 2) * |t|) ≤ 2 * len * Real.sin (d / 2) := by
    intro t ht
    have : Real.sin ((a - b) / 2) * |t| ≤ Real.sin (d / 2) * 1 := mul_le_mul hs1 ht (abs_nonneg _) (hs0.trans hs1)
    nlinarith
  constructor
  · rw [← mul_sub, abs_mul, abs_of_nonneg hl, Real.cos_sub_cos, abs_mul, abs_mul, abs_of_nonneg hs0]
    have := key _ (Real.abs_sin_le_one ((a + b) / 2))
    have e : |(-2 : ℝ)| = 2 := by norm_num
    rw [e]
    nlinarith
  · rw [← mul_sub, abs_mul, abs_of_nonneg hl, Real.sin_sub_sin, abs_mul, abs_mul, abs_of_nonneg hs0]
    have := key _ (Real.abs_cos_le_one ((a + b) / 2))
    have e : |(2 : ℝ)| = 2 := by norm_num
    rw [e]
    nlinarith

/-- **C115** With exact arithmetic, DiscretizeAngles chooses angle steps for which one step of a joint (the step from the last value to 0 included) moves the end of the
link by at most one cell width in each direction. -/
theorem discretize_fine {c : Cfg ℝ} (hc : 0 < c.cell) {pi : ℝ} (hpi : pi ≤ Real.pi) (h : ∀ l ∈ c.links, RealLink c.cell pi l) : FineSteps c := by
  intro l hl k hk
  obtain ⟨hlen, hdelta, hvals, hcs, hsn, hturn⟩ := h l hl
  have lpos : 0 < l.len := by linarith
  have x0 : 0 < c.cell / 2 / l.len := by positivity
  have x1 : c.cell / 2 / l.len ≤ 1 := by rw [div_le_one lpos]; exact hlen
  unfold discretize at hdelta hvals
  dsimp only at hdelta hvals
  generalize harc : Real.arcsin (c.cell / 2 / l.len) = asv at hdelta hvals
  have as0 : 0 < asv := by rw [← harc, Real.arcsin_pos]; exact x0
  have as1 : asv ≤ Real.pi / 2 := by rw [← harc]; exact Real.arcsin_le_pi_div_two _
  have hd0 : 0 < l.delta := by rw [hdelta]; linarith
  have hdp : l.delta ≤ Real.pi := by rw [hdelta]; linarith
  have hsin : 2 * l.len * Real.sin (l.delta / 2) = c.cell := by
    rw [hdelta, mul_div_cancel_left₀ _ (two_ne_zero), ← harc, Real.sin_arcsin (by linarith) x1]
    field_simp
  have hwrap : ((l.vals : ℝ) - 1) * l.delta < 2 * Real.pi := by
    have h1 : (l.vals : ℝ) ≤ 2 * pi / (2 * asv) + 99999999 / 100000000 := by
      have hv1 : (1 : Int) ≤ l.vals := by omega
      unfold ctrunc at hvals
      split at hvals
      · have := Int.floor_le (2 * pi / (2 * asv) + 99999999 / 100000000)
        rw [← hvals] at this; exact_mod_cast this
      · next hneg =>
        have : ⌈2 * pi / (2 * asv) + 99999999 / 100000000⌉ ≤ 0 := by rw [Int.ceil_le]; push_cast; linarith
        omega
    rw [← hdelta] at h1
    have h2 : 2 * pi / l.delta * l.delta = 2 * pi := div_mul_cancel₀ _ hd0.ne'
    nlinarith
  rw [hcs, hcs, hsn, hsn, ← hsin]
  by_cases e : k + 1 < l.vals
  · rw [Nat.mod_eq_of_lt e]
    push_cast
    exact chord lpos.le hdp (by nlinarith) (by nlinarith)
  · have e' : k + 1 = l.vals := by omega
    rw [e', Nat.mod_self]
    have ek : (k : ℝ) = l.vals - 1 := by rw [← e']; push_cast; ring
    have ec : Real.cos (((0 : Nat) : ℝ) * l.delta) = Real.cos (2 * Real.pi) := by rw [Nat.cast_zero, zero_mul, Real.cos_zero, Real.cos_two_pi]
    have es : Real.sin (((0 : Nat) : ℝ) * l.delta) = Real.sin (2 * Real.pi) := by rw [Nat.cast_zero, zero_mul, Real.sin_zero, Real.sin_two_pi]
    rw [ec, es]
    exact chord lpos.le hdp (by rw [ek]; linarith) (by rw [ek]; linarith)

end Sbpl.ArmTrigProps
