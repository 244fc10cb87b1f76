import Verif.Proofs.Bresenham
import Verif.Spec.Utils
/-! # C11, C12, C13: angle normalisation, cell conversion, Bresenham lines -/

namespace Sbpl.UtilsProps
open Sbpl Utils UtilsSpec

/-! ## C11 -/

theorem tmod_nonneg_eq {t n : Int} (ht : 0 ≤ t) : t.tmod n = t % n := Int.tmod_eq_emod_of_nonneg ht

/-- **C11** the macro returns the residue modulo `n`, for negative angles too. -/
theorem normDiscTheta_residue (t : Int) {n : Int} (hn : 0 < n) : IsResidue t n (normDiscTheta t n) := by
  have e := Int.emod_add_mul_ediv t n
  have h1 := Int.emod_nonneg t (b := n) (by omega)
  have h2 := Int.emod_lt_of_pos t (b := n) hn
  have key : normDiscTheta t n = t % n := by
    unfold normDiscTheta
    split_ifs with h
    · exact tmod_nonneg_eq h
    · have h3 : -n < t.tmod n := by
        have := Int.lt_tmod_of_pos t hn
        exact this
      rw [tmod_nonneg_eq (by omega)]
      rw [Int.tmod_eq_emod]
      split_ifs
      · simp
      · rw [Int.add_emod, Int.sub_emod]
        have : ((n.natAbs : Int)) = n := by omega
        rw [this]
        simp
  rw [key]
  exact ⟨h1, h2, t / n, by rw [Int.mul_comm]; omega⟩

/-- **C11** the residue is unique, hence the macro is canonical and idempotent. -/
theorem residue_unique {t n r r' : Int} (h : IsResidue t n r) (h' : IsResidue t n r') : r = r' := by
  obtain ⟨h0, h1, k, e⟩ := h
  obtain ⟨h0', h1', k', e'⟩ := h'
  have hk : (k - k') * n = r' - r := by rw [Int.sub_mul]; omega
  have : k - k' = 0 := by
    by_contra hne
    rcases Int.lt_or_gt_of_ne hne with hl | hl
    · have : (k - k') * n ≤ -1 * n := Int.mul_le_mul_of_nonneg_right (by omega) (by omega)
      omega
    · have : 1 * n ≤ (k - k') * n := Int.mul_le_mul_of_nonneg_right (by omega) (by omega)
      omega
  rw [this] at hk
  omega

theorem normDiscTheta_idem (t : Int) {n : Int} (hn : 0 < n) :
    normDiscTheta (normDiscTheta t n) n = normDiscTheta t n := by
  have h := normDiscTheta_residue t hn
  exact residue_unique (normDiscTheta_residue _ hn) ⟨h.1, h.2.1, 0, by omega⟩

theorem normDiscTheta_period (t k : Int) {n : Int} (hn : 0 < n) :
    normDiscTheta (t + k * n) n = normDiscTheta t n := by
  obtain ⟨h0, h1, j, e⟩ := normDiscTheta_residue t hn
  exact residue_unique (normDiscTheta_residue _ hn) ⟨h0, h1, j + k, by rw [Int.add_mul]; omega⟩

example : normDiscTheta (-17) 16 = 15 ∧ normDiscTheta (-16) 16 = 0 ∧ normDiscTheta 33 16 = 1 := by decide

/-! ## C12 -/

theorem trunc_nonneg {q : ℚ} (h : 0 ≤ q) : trunc q = ⌊q⌋ := by simp [trunc, h]
theorem trunc_neg {q : ℚ} (h : q < 0) : trunc q = ⌈q⌉ := by simp [trunc, not_le.mpr h]

theorem inCell_iff {x cell : ℚ} (hc : 0 < cell) {i : Int} : InCell x cell i ↔ ⌊x / cell⌋ = i := by
  rw [Int.floor_eq_iff, le_div_iff₀ hc, div_lt_iff₀ hc]
  rfl

/-- **C12** for every non-negative coordinate the result is the cell containing it. -/
theorem contXY2Disc_nonneg {x cell : ℚ} (hc : 0 < cell) (hx : 0 ≤ x) : InCell x cell (contXY2Disc x cell) := by
  rw [inCell_iff hc]
  unfold contXY2Disc
  rw [if_pos hx, trunc_nonneg (div_nonneg hx hc.le)]

/-- **C12** for a negative coordinate that is not a cell boundary the result is the cell containing it. -/
theorem contXY2Disc_neg {x cell : ℚ} (hc : 0 < cell) (hx : x < 0) (hb : ∀ i : Int, x ≠ i * cell) :
    InCell x cell (contXY2Disc x cell) := by
  have hq : x / cell < 0 := div_neg_of_neg_of_pos hx hc
  unfold contXY2Disc
  rw [if_neg (not_le.mpr hx), trunc_neg hq]
  have h1 := Int.ceil_lt_add_one (x / cell)
  have h2 := Int.le_ceil (x / cell)
  have h3 : x / cell ≠ ⌈x / cell⌉ := by
    intro h
    apply hb ⌈x / cell⌉
    rw [← h, div_mul_cancel₀ _ hc.ne']
  have h4 : x / cell < ⌈x / cell⌉ := lt_of_le_of_ne h2 h3
  rw [inCell_iff hc, Int.floor_eq_iff]
  push_cast
  constructor <;> linarith

/-- **C12** at a negative cell boundary the result is one cell too low: the coordinate `i * cell` belongs to cell `i`, the macro
returns `i - 1`. -/
theorem contXY2Disc_boundary {cell : ℚ} (hc : 0 < cell) {i : Int} (hi : i < 0) :
    contXY2Disc (i * cell) cell = i - 1 ∧ InCell (i * cell) cell i := by
  have hneg : (i : ℚ) * cell < 0 := mul_neg_of_neg_of_pos (by exact_mod_cast hi) hc
  refine ⟨?_, le_refl _, ?_⟩
  · unfold contXY2Disc
    rw [if_neg (not_le.mpr hneg), mul_div_cancel_right₀ _ hc.ne', trunc_neg (by exact_mod_cast hi)]
    simp
  · have : (i : ℚ) * cell < (i : ℚ) * cell + cell := by linarith
    linarith [add_mul (i : ℚ) 1 cell]

/-- **C12** every cell centre converts back to its cell. -/
theorem disc_cont_disc (i : Int) {cell : ℚ} (hc : 0 < cell) : contXY2Disc (discXY2Cont i cell) cell = i := by
  have hin : InCell (discXY2Cont i cell) cell i := by
    unfold InCell discXY2Cont
    constructor <;> linarith [add_mul (i : ℚ) 1 cell]
  by_cases h : 0 ≤ discXY2Cont i cell
  · have := contXY2Disc_nonneg hc h
    rw [inCell_iff hc] at this hin
    omega
  · have := contXY2Disc_neg hc (not_le.mp h) (by
      intro j hj
      unfold discXY2Cont at hj
      have h1 : (j : ℚ) = i + 1 / 2 := by
        have : (j : ℚ) * cell = (i + 1 / 2) * cell := by linarith
        exact mul_right_cancel₀ hc.ne' this
      have h2 : ((2 * j : Int) : ℚ) = ((2 * i + 1 : Int) : ℚ) := by push_cast; linarith
      have h3 : 2 * j = 2 * i + 1 := by exact_mod_cast h2
      omega)
    rw [inCell_iff hc] at this hin
    omega

/-- **C12** cell centres are at most half a cell away from the coordinate they stand for. -/
theorem cont_disc_cont {x cell : ℚ} (hc : 0 < cell) (hx : 0 ≤ x) :
    |discXY2Cont (contXY2Disc x cell) cell - x| ≤ cell / 2 := by
  obtain ⟨h1, h2⟩ := contXY2Disc_nonneg hc hx
  unfold discXY2Cont
  rw [abs_le]
  constructor <;> linarith [add_mul ((contXY2Disc x cell : ℤ) : ℚ) 1 cell]

example : contXY2Disc (7 / 10) (1 / 4) = 2 ∧ contXY2Disc (-1 / 2) (1 / 4) = -3 ∧ contXY2Disc (-3 / 10) (1 / 4) = -2 := by
  refine ⟨?_, ?_, ?_⟩ <;> norm_num [contXY2Disc, trunc] <;> norm_num [Int.floor_eq_iff, Int.ceil_eq_iff]

/-! ## C13 -/

theorem getParams_inc {p q : Int × Int} : (getParams p.1 p.2 q.1 q.2).inc = 1 ∨ (getParams p.1 p.2 q.1 q.2).inc = -1 :=
  (params_ok p q).1.inc

theorem kf_zero {m n : Int} (hn : 0 ≤ n) (up : Bool) : kf up m n 0 = 0 := by
  rcases Int.lt_or_eq_of_le hn with h | h
  · exact kf_unique h up 0 0 (by omega) (by omega) (by omega) (by omega)
  · subst h; cases up <;> simp [kf]

theorem kf_end {m n : Int} (hn : 0 < n) (up : Bool) : kf up m n n = m := by
  apply kf_unique hn
  · linarith [mul_comm m n]
  · linarith [mul_comm m n]
  · intro _; linarith [mul_comm m n]
  · intro _; linarith [mul_comm m n]

theorem kf_step {m n : Int} (hn : 0 < n) (h0 : 0 ≤ m) (hm : m ≤ n) (up : Bool) (i : Int) :
    kf up m n (i + 1) = kf up m n i ∨ kf up m n (i + 1) = kf up m n i + 1 := by
  obtain ⟨b1, b2, b3, b4⟩ := kf_bounds (m := m) hn up i
  obtain ⟨c1, c2, c3, c4⟩ := kf_bounds (m := m) hn up (i + 1)
  generalize kf up m n i = k at *
  generalize kf up m n (i + 1) = k' at *
  have e : 2 * m * (i + 1) = 2 * m * i + 2 * m := by ring
  rw [e] at c1 c2 c3 c4
  have l1 : 2 * n * k < 2 * n * (k' + 1) := by
    cases up
    · have := b4 rfl
      linarith
    · have := c3 rfl
      linarith
  have l2 : 2 * n * k' < 2 * n * (k + 2) := by
    cases up
    · have := c4 rfl
      linarith
    · have := b3 rfl
      linarith
  have a1 := lt_of_mul_lt_mul_left l1 (by omega)
  have a2 := lt_of_mul_lt_mul_left l2 (by omega)
  omega

theorem kf_range {m n : Int} (hn : 0 < n) (h0 : 0 ≤ m) (up : Bool) {i : Int} (i0 : 0 ≤ i) (hi : i ≤ n) :
    0 ≤ kf up m n i ∧ kf up m n i ≤ m := by
  obtain ⟨b1, b2, b3, b4⟩ := kf_bounds (m := m) hn up i
  have p1 : 0 ≤ m * i := mul_nonneg h0 i0
  have p2 : m * i ≤ m * n := mul_le_mul_of_nonneg_left hi h0
  generalize kf up m n i = k at *
  constructor
  · have : 2 * n * (-1) < 2 * n * k := by linarith [mul_assoc 2 m i]
    have := lt_of_mul_lt_mul_left this (by omega)
    omega
  · have : 2 * n * k < 2 * n * (m + 1) := by linarith [mul_assoc 2 m i, mul_comm m n]
    have := lt_of_mul_lt_mul_left this (by omega)
    omega

theorem kf_mirror {m n : Int} (hn : 0 < n) (up : Bool) (i : Int) : kf (!up) m n (n - i) = m - kf up m n i := by
  obtain ⟨b1, b2, b3, b4⟩ := kf_bounds (m := m) hn up i
  generalize kf up m n i = k at *
  have e : 2 * m * (n - i) = 2 * n * m - 2 * m * i := by ring
  apply kf_unique hn
  · rw [e]; linarith [mul_sub (2 * n) m k]
  · rw [e]; linarith [mul_sub (2 * n) m k]
  · intro h
    have h' : up = false := by simpa using h
    have := b4 h'
    rw [e]; linarith [mul_sub (2 * n) m k]
  · intro h
    have h' : up = true := by simpa using h
    have := b3 h'
    rw [e]; linarith [mul_sub (2 * n) m k]

/-- the run of the loop, explicitly -/
theorem line_eq (p q : Int × Int) {fuel : Nat} (hf : major p q < fuel) :
    line fuel p q = some ((List.range (major p q + 1)).map fun t : Nat =>
      (getParams p.1 p.2 q.1 q.2).pt (minor p q) (major p q) t) := by
  obtain ⟨ok, e, _⟩ := params_ok p q
  have := line_run ok (major p q) 0 fuel (by omega) hf
  unfold line
  have e0 : ((0 : Nat) : Int) = 0 := rfl
  rw [e0, kf_zero (by omega), ← e] at this
  rw [List.range_eq_range', ← this]

/-- the point at step `i`, in map coordinates: `k` is the number of minor steps -/
theorem pt_eq (p q : Int × Int) :
    ∃ t : Int, (t = 1 ∨ t = -1) ∧
      ((|q.2 - p.2| ≤ |q.1 - p.1| ∧ (∀ i k, curPoint ((getParams p.1 p.2 q.1 q.2).at_ (minor p q) (major p q) i k) =
            (p.1 + (getParams p.1 p.2 q.1 q.2).inc * i, p.2 + t * k)) ∧
          q.1 = p.1 + (getParams p.1 p.2 q.1 q.2).inc * major p q ∧ q.2 = p.2 + t * minor p q) ∨
       (|q.1 - p.1| < |q.2 - p.2| ∧ (∀ i k, curPoint ((getParams p.1 p.2 q.1 q.2).at_ (minor p q) (major p q) i k) =
            (p.1 + t * k, p.2 + (getParams p.1 p.2 q.1 q.2).inc * i)) ∧
          q.2 = p.2 + (getParams p.1 p.2 q.1 q.2).inc * major p q ∧ q.1 = p.1 + t * minor p q)) := by
  obtain ⟨ok, e, hc⟩ := params_ok p q
  have hu : (getParams p.1 p.2 q.1 q.2).usingY = decide (|q.2 - p.2| > |q.1 - p.1|) := rfl
  set b := getParams p.1 p.2 q.1 q.2 with hb
  have hq : (if b.usingY then ((if b.flipped then -b.Y2 else b.Y2), b.X2) else (b.X2, if b.flipped then -b.Y2 else b.Y2)) = q := by
    rw [hb]
    obtain ⟨qx, qy⟩ := q
    simp only [getParams]
    by_cases h1 : |qy - p.2| > |qx - p.1| <;> by_cases h2 : (qx - p.1) * (qy - p.2) < 0 <;> simp [h1, h2]
  have hp : (if b.usingY then ((if b.flipped then -b.Y1 else b.Y1), b.X1) else (b.X1, if b.flipped then -b.Y1 else b.Y1)) = p := by
    rw [hb]
    obtain ⟨px, py⟩ := p
    simp only [getParams]
    by_cases h1 : |q.2 - py| > |q.1 - px| <;> by_cases h2 : (q.1 - px) * (q.2 - py) < 0 <;> simp [h1, h2]
  have hx2 := ok.x2
  have hy2 := ok.y2
  rw [Prod.ext_iff] at hq hp
  by_cases hU : |q.2 - p.2| > |q.1 - p.1|
  · have hu' : b.usingY = true := by rw [hu]; simpa using hU
    simp only [hu', if_true] at hq hp
    by_cases hF : b.flipped = true
    · refine ⟨-b.inc, by rcases ok.inc with h | h <;> omega, Or.inr ⟨hU, ?_, ?_, ?_⟩⟩
      · intro i k
        simp only [curPoint, Bres.at_, hu', hF, if_true] at hp ⊢
        rw [← hp.1, ← hp.2]
        ext <;> simp <;> ring
      · rw [← hp.2, ← hq.2]; exact hx2
      · simp only [hF, if_true] at hp hq
        rw [← hp.1, ← hq.1, hy2]; ring
    · have hF' : b.flipped = false := by simpa using hF
      refine ⟨b.inc, ok.inc, Or.inr ⟨hU, ?_, ?_, ?_⟩⟩
      · intro i k
        simp only [curPoint, Bres.at_, hu', hF', if_true, if_false, Bool.false_eq_true] at hp ⊢
        rw [← hp.1, ← hp.2]
      · rw [← hp.2, ← hq.2]; exact hx2
      · simp only [hF', if_false, Bool.false_eq_true] at hp hq
        rw [← hp.1, ← hq.1, hy2]
  · have hu' : b.usingY = false := by rw [hu]; simpa using hU
    simp only [hu', if_false, Bool.false_eq_true] at hq hp
    by_cases hF : b.flipped = true
    · refine ⟨-b.inc, by rcases ok.inc with h | h <;> omega, Or.inl ⟨not_lt.mp hU, ?_, ?_, ?_⟩⟩
      · intro i k
        simp only [curPoint, Bres.at_, hu', hF, if_true, if_false, Bool.false_eq_true] at hp ⊢
        rw [← hp.1, ← hp.2]
        ext <;> simp <;> ring
      · rw [← hp.1, ← hq.1]; exact hx2
      · simp only [hF, if_true] at hp hq
        rw [← hp.2, ← hq.2, hy2]; ring
    · have hF' : b.flipped = false := by simpa using hF
      refine ⟨b.inc, ok.inc, Or.inl ⟨not_lt.mp hU, ?_, ?_, ?_⟩⟩
      · intro i k
        simp only [curPoint, Bres.at_, hu', hF', if_false, Bool.false_eq_true] at hp ⊢
        rw [← hp.1, ← hp.2]
      · rw [← hp.1, ← hq.1]; exact hx2
      · simp only [hF', if_false, Bool.false_eq_true] at hp hq
        rw [← hp.2, ← hq.2, hy2]

theorem major_eq (p q : Int × Int) : (major p q : Int) = max |q.1 - p.1| |q.2 - p.2| := by
  unfold major
  rw [Int.abs_eq_natAbs, Int.abs_eq_natAbs]; omega

theorem major_comm (p q : Int × Int) : major q p = major p q := by unfold major; omega
theorem minor_comm (p q : Int × Int) : minor q p = minor p q := by unfold minor; omega

theorem minor_le (p q : Int × Int) : minor p q ≤ major p q := by unfold minor major; omega

theorem near_aux {n m i k s t : Int} (hs : s = 1 ∨ s = -1) (ht : t = 1 ∨ t = -1) (h : |n * k - m * i| * 2 ≤ n) :
    2 * |s * n * (t * k) - t * m * (s * i)| ≤ n ∧ 2 * |t * m * (s * i) - s * n * (t * k)| ≤ n := by
  have e : s * n * (t * k) - t * m * (s * i) = (s * t) * (n * k - m * i) := by ring
  have e' : t * m * (s * i) - s * n * (t * k) = -((s * t) * (n * k - m * i)) := by ring
  have ha : |(s * t)| = 1 := by
    rcases hs with rfl | rfl <;> rcases ht with rfl | rfl <;> simp
  rw [e', abs_neg, e, abs_mul, ha]
  constructor <;> linarith

/-- **C13** for all end points the loop terminates and visits a digital line from the first to the second end point. -/
theorem line_digital (p q : Int × Int) : ∃ l, (∀ fuel, max (q.1 - p.1).natAbs (q.2 - p.2).natAbs < fuel → line fuel p q = some l) ∧
    DigitalLine p q l := by
  refine ⟨_, fun fuel hf => line_eq p q hf, ?_⟩
  obtain ⟨ok, e, hc⟩ := params_ok p q
  obtain ⟨t, ht, hpt⟩ := pt_eq p q
  have hs := ok.inc
  have mn : (minor p q : Int) ≤ major p q := by exact_mod_cast minor_le p q
  generalize hb : getParams p.1 p.2 q.1 q.2 = b at *
  -- facts on one point
  have hP : ∀ i : Nat, i ≤ major p q → NearLine p q (b.pt (minor p q) (major p q) i) ∧
      InBox p q (b.pt (minor p q) (major p q) i) := by
    intro i hi
    have hk : 0 ≤ kf b.up (minor p q) (major p q) i ∧ kf b.up (minor p q) (major p q) i ≤ minor p q ∧
        |(major p q : Int) * kf b.up (minor p q) (major p q) i - (minor p q : Int) * i| * 2 ≤ major p q := by
      rcases Nat.eq_zero_or_pos (major p q) with h0 | h0
      · have : i = 0 := by omega
        subst this
        have e0 : ((0 : Nat) : Int) = 0 := rfl
        rw [e0, kf_zero (by omega)]
        simp
      · have hn : (0 : Int) < major p q := by exact_mod_cast h0
        have hr := kf_range hn (m := (minor p q : Int)) (by omega) b.up (i := (i : Int)) (by omega) (by exact_mod_cast hi)
        obtain ⟨b1, b2, _, _⟩ := kf_bounds (m := (minor p q : Int)) hn b.up i
        refine ⟨hr.1, hr.2, ?_⟩
        generalize kf b.up (minor p q) (major p q) i = k at *
        have : |(major p q : Int) * k - (minor p q : Int) * i| * 2 = |2 * (major p q : Int) * k - 2 * (minor p q : Int) * i| := by
          rw [← abs_two (α := Int), ← abs_mul]
          simp only [abs_two]
          congr 1; ring
        rw [this, abs_le]
        constructor <;> linarith
    obtain ⟨k0, k1, k2⟩ := hk
    have hi' : (i : Int) ≤ major p q := by exact_mod_cast hi
    have hi0 : (0 : Int) ≤ i := by omega
    have hn := near_aux hs ht k2
    have hM := major_eq p q
    unfold Bres.pt NearLine InBox
    generalize kf b.up (minor p q) (major p q) i = k at *
    rcases hpt with ⟨h1, h2, h3, h4⟩ | ⟨h1, h2, h3, h4⟩
    · rw [h2 i k]
      rw [← hM]
      refine ⟨?_, ?_⟩
      · have e1 : q.1 - p.1 = b.inc * major p q := by rw [h3]; ring
        have e2 : q.2 - p.2 = t * minor p q := by rw [h4]; ring
        rw [e1, e2]
        simp only [add_sub_cancel_left]
        exact hn.1
      · rw [h3, h4]
        rcases hs with hs | hs <;> rcases ht with ht | ht <;> rw [hs, ht] <;> refine ⟨?_, ?_, ?_, ?_⟩ <;> simp <;> omega
    · rw [h2 i k]
      rw [← hM]
      refine ⟨?_, ?_⟩
      · have e1 : q.2 - p.2 = b.inc * major p q := by rw [h3]; ring
        have e2 : q.1 - p.1 = t * minor p q := by rw [h4]; ring
        rw [e1, e2]
        simp only [add_sub_cancel_left]
        exact hn.2
      · rw [h3, h4]
        rcases hs with hs | hs <;> rcases ht with ht | ht <;> rw [hs, ht] <;> refine ⟨?_, ?_, ?_, ?_⟩ <;> simp <;> omega
  refine ⟨?_, ?_, ?_, ?_, ?_, ?_⟩
  · rw [List.range_succ_eq_map]
    simp only [List.map_cons, List.head?_cons]
    have e0 : ((0 : Nat) : Int) = 0 := rfl
    rw [Bres.pt, e0, kf_zero (by omega), ← e, hc]
  · rw [List.range_succ, List.map_append]
    simp only [List.map_cons, List.map_nil, List.getLast?_append, List.getLast?_singleton, Option.some_or, Option.some.injEq]
    rw [Bres.pt]
    have hkm : t * kf b.up (minor p q) (major p q) (major p q) = t * minor p q := by
      rcases Nat.eq_zero_or_pos (major p q) with h0 | h0
      · have : minor p q = 0 := by have := minor_le p q; omega
        rw [h0, this]; cases b.up <;> simp [kf]
      · rw [kf_end (by exact_mod_cast h0)]
    rcases hpt with ⟨_, h2, h3, h4⟩ | ⟨_, h2, h3, h4⟩
    · rw [h2, hkm, ← h3, ← h4]
    · rw [h2, hkm, ← h3, ← h4]
  · simp [major]
  · rw [List.isChain_iff_getElem]
    intro i hi
    simp only [List.length_map, List.length_range] at hi
    simp only [List.getElem_map, List.getElem_range]
    have h0 : (0 : Int) < major p q := by omega
    have hst := kf_step h0 (m := (minor p q : Int)) (by omega) mn b.up i
    unfold Bres.pt King
    push_cast
    generalize kf b.up (minor p q) (major p q) (i + 1) = k' at *
    generalize kf b.up (minor p q) (major p q) i = k at *
    rcases hpt with ⟨_, h2, h3, h4⟩ | ⟨_, h2, h3, h4⟩
    · rw [h2, h2]
      refine ⟨?_, ?_, ?_⟩
      · intro h
        have := (Prod.ext_iff.mp h).1
        simp only at this
        rcases hs with hs | hs <;> rw [hs] at this <;> omega
      · rcases hs with hs | hs <;> rw [hs] <;> rw [abs_le] <;> constructor <;> simp <;> omega
      · rcases ht with ht | ht <;> rw [ht] <;> rw [abs_le] <;> constructor <;> simp <;> omega
    · rw [h2, h2]
      refine ⟨?_, ?_, ?_⟩
      · intro h
        have := (Prod.ext_iff.mp h).2
        simp only at this
        rcases hs with hs | hs <;> rw [hs] at this <;> omega
      · rcases ht with ht | ht <;> rw [ht] <;> rw [abs_le] <;> constructor <;> simp <;> omega
      · rcases hs with hs | hs <;> rw [hs] <;> rw [abs_le] <;> constructor <;> simp <;> omega
  · intro c hcm
    obtain ⟨i, hi, rfl⟩ := List.mem_map.mp hcm
    exact (hP i (by have := List.mem_range.mp hi; omega)).1
  · intro c hcm
    obtain ⟨i, hi, rfl⟩ := List.mem_map.mp hcm
    exact (hP i (by have := List.mem_range.mp hi; omega)).2

/-- **C13** the line does not depend on the direction: swapping the end points visits the same cells in reverse order. -/
theorem line_reverse (p q : Int × Int) {fuel : Nat} (hf : max (q.1 - p.1).natAbs (q.2 - p.2).natAbs < fuel) :
    line fuel q p = (line fuel p q).map List.reverse := by
  have hf' : major p q < fuel := hf
  rw [line_eq p q hf', line_eq q p (by rw [major_comm]; exact hf'), major_comm, minor_comm]
  simp only [Option.map_some, Option.some.injEq]
  apply List.ext_getElem
  · simp
  intro i h1 h2
  simp only [List.length_map, List.length_range] at h1
  simp only [List.getElem_map, List.getElem_range, List.getElem_reverse, List.length_map, List.length_range]
  have hi : i ≤ major p q := by omega
  have hi' : ((major p q + 1 - 1 - i : Nat) : Int) = major p q - i := by omega
  rw [hi']
  rcases Nat.eq_zero_or_pos (major p q) with h0 | h0
  · have e : p = q := by
      unfold major at h0
      ext <;> omega
    subst e
    rw [h0]
    have : i = 0 := by omega
    subst this; rfl
  have hn : (0 : Int) < major p q := by exact_mod_cast h0
  obtain ⟨t, ht, hpt⟩ := pt_eq p q
  obtain ⟨t', ht', hpt'⟩ := pt_eq q p
  have hs := getParams_inc (p := p) (q := q)
  have hs' := getParams_inc (p := q) (q := p)
  rw [major_comm, minor_comm] at hpt'
  unfold Bres.pt
  simp only [Bres.up] at *
  generalize getParams p.1 p.2 q.1 q.2 = b at *
  generalize getParams q.1 q.2 p.1 p.2 = b' at *
  have habs : |p.1 - q.1| = |q.1 - p.1| := abs_sub_comm _ _
  have habs' : |p.2 - q.2| = |q.2 - p.2| := abs_sub_comm _ _
  rw [habs, habs'] at hpt'
  have fin : b'.inc = -b.inc → (minor p q ≠ 0 → t' = -t) →
      t' * kf (decide (b'.inc = 1)) (minor p q) (major p q) i =
        -(t * minor p q) + t * kf (decide (b.inc = 1)) (minor p q) (major p q) (major p q - i) := by
    intro hii htt
    have hup : decide (b'.inc = 1) = !(decide (b.inc = 1)) := by
      rw [hii]
      rcases hs with h | h <;> rw [h] <;> decide
    have := kf_mirror (m := (minor p q : Int)) hn (decide (b'.inc = 1)) i
    rw [hup] at this ⊢
    simp only [Bool.not_not] at this
    rw [this]
    by_cases hm : minor p q = 0
    · have hr := kf_range hn (m := (minor p q : Int)) (by omega) (!decide (b.inc = 1)) (i := (i : Int)) (by omega)
        (by exact_mod_cast hi)
      have : kf (!decide (b.inc = 1)) (minor p q) (major p q) i = 0 := by omega
      rw [this, hm]; simp
    · rw [htt hm]; ring
  rcases hpt with ⟨g1, g2, g3, g4⟩ | ⟨g1, g2, g3, g4⟩ <;> rcases hpt' with ⟨g1', g2', g3', g4'⟩ | ⟨g1', g2', g3', g4'⟩
  · have hii : b'.inc = -b.inc := by
      rcases hs with h | h <;> rcases hs' with h' | h' <;> rw [h] at g3 ⊢ <;> rw [h'] at g3' ⊢ <;> omega
    have htt : minor p q ≠ 0 → t' = -t := by
      intro hm
      rcases ht with h | h <;> rcases ht' with h' | h' <;> rw [h] at g4 ⊢ <;> rw [h'] at g4' ⊢ <;> omega
    rw [g2, g2', fin hii htt, hii]
    ext
    · simp only; rw [g3]; ring
    · simp only; rw [g4]; ring
  · omega
  · omega
  · have hii : b'.inc = -b.inc := by
      rcases hs with h | h <;> rcases hs' with h' | h' <;> rw [h] at g3 ⊢ <;> rw [h'] at g3' ⊢ <;> omega
    have htt : minor p q ≠ 0 → t' = -t := by
      intro hm
      rcases ht with h | h <;> rcases ht' with h' | h' <;> rw [h] at g4 ⊢ <;> rw [h'] at g4' ⊢ <;> omega
    rw [g2, g2', fin hii htt, hii]
    ext
    · simp only; rw [g4]; ring
    · simp only; rw [g3]; ring

example : line 10 (0, 0) (5, 2) = some [(0, 0), (1, 0), (2, 1), (3, 1), (4, 2), (5, 2)] ∧
    line 10 (3, 1) (1, 5) = some [(3, 1), (2, 2), (2, 3), (1, 4), (1, 5)] := by decide

end Sbpl.UtilsProps
