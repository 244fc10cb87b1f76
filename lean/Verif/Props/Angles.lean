import Verif.Props.Utils
/-! # C33, C34: angle normalisation, angle bins, angle differences (exact arithmetic) -/

namespace Sbpl.AngleProps
open Sbpl Utils UtilsProps

/-- a full turn, `2*PI_CONST` -/
abbrev TURN : ℚ := 2 * PI_CONST

/-- the two angles denote the same direction -/
def SameDir (a b : ℚ) : Prop := ∃ k : ℤ, a = b + k * TURN

theorem pi_pos : 0 < PI_CONST := by unfold PI_CONST; norm_num
theorem turn_pos : 0 < TURN := by have := pi_pos; unfold TURN; linarith

theorem SameDir.symm {a b : ℚ} (h : SameDir a b) : SameDir b a := by
  obtain ⟨k, h⟩ := h; exact ⟨-k, by push_cast; rw [h]; ring⟩
theorem SameDir.trans {a b c : ℚ} (h : SameDir a b) (h' : SameDir b c) : SameDir a c := by
  obtain ⟨k, h⟩ := h; obtain ⟨j, h'⟩ := h'; exact ⟨k + j, by push_cast; rw [h, h']; ring⟩

theorem normalize_cases (a : ℚ) : SameDir (normalizeAngle a) a ∧ 0 ≤ normalizeAngle a ∧
    (normalizeAngle a < TURN ∨ a = TURN ∧ normalizeAngle a = TURN) := by
  have hT := turn_pos
  have eT : TURN = 2 * PI_CONST := rfl
  unfold normalizeAngle
  simp only [← eT]
  by_cases hbig : |a| > TURN
  · simp only [hbig, if_true]
    have e : ∀ z : ℤ, (z : ℚ) * 2 * PI_CONST = z * TURN := by intro z; rw [eT]; ring
    rw [e]
    by_cases h0 : 0 ≤ a
    · have hq : 0 ≤ a / TURN := div_nonneg h0 hT.le
      rw [trunc_nonneg hq]
      have h1 := Int.floor_le (a / TURN)
      have h2 := Int.lt_floor_add_one (a / TURN)
      rw [le_div_iff₀ hT] at h1
      rw [div_lt_iff₀ hT] at h2
      have : ¬ a - (⌊a / TURN⌋ : ℚ) * TURN < 0 := by linarith
      rw [if_neg this]
      refine ⟨⟨-⌊a / TURN⌋, by push_cast; ring⟩, by linarith, Or.inl ?_⟩
      linarith [add_mul (⌊a / TURN⌋ : ℚ) 1 TURN]
    · have hq : a / TURN < 0 := div_neg_of_neg_of_pos (not_le.mp h0) hT
      rw [trunc_neg hq]
      have h1 := Int.le_ceil (a / TURN)
      have h2 := Int.ceil_lt_add_one (a / TURN)
      rw [div_le_iff₀ hT] at h1
      have h2' : (⌈a / TURN⌉ : ℚ) * TURN < a + TURN := by
        have := mul_lt_mul_of_pos_right h2 hT
        rw [add_mul, div_mul_cancel₀ _ hT.ne'] at this
        linarith
      split_ifs with hneg
      · refine ⟨⟨-⌈a / TURN⌉ + 1, by push_cast; ring⟩, by linarith, Or.inl (by linarith)⟩
      · refine ⟨⟨-⌈a / TURN⌉, by push_cast; ring⟩, by linarith, Or.inl (by linarith)⟩
  · simp only [hbig, if_false]
    have hle := not_lt.mp hbig
    rw [abs_le] at hle
    split_ifs with hneg
    · exact ⟨⟨1, by push_cast; ring⟩, by linarith, Or.inl (by linarith)⟩
    · refine ⟨⟨0, by simp⟩, not_lt.mp hneg, ?_⟩
      rcases lt_or_eq_of_le hle.2 with h | h
      · exact Or.inl h
      · exact Or.inr ⟨h, h⟩

/-- **C33** the result denotes the same direction and lies in [0, 2 PI]; 2 PI is returned only for the argument 2 PI itself. -/
theorem normalizeAngle_range (a : ℚ) : SameDir (normalizeAngle a) a ∧ 0 ≤ normalizeAngle a ∧ normalizeAngle a ≤ TURN ∧
    (normalizeAngle a = TURN ↔ a = TURN) := by
  obtain ⟨h1, h2, h3⟩ := normalize_cases a
  refine ⟨h1, h2, ?_, ?_⟩
  · rcases h3 with h | h
    · exact h.le
    · exact h.2.le
  · constructor
    · intro h
      rcases h3 with h' | h'
      · linarith
      · exact h'.1
    · rintro rfl
      have : ¬ TURN < 0 := not_lt.mpr turn_pos.le
      unfold normalizeAngle
      have e : |TURN| = TURN := abs_of_pos turn_pos
      simp [turn_pos.le, e]

theorem same_small {a b : ℚ} (h : SameDir a b) (ha : 0 ≤ a) (ha' : a < TURN) (hb : 0 ≤ b) (hb' : b < TURN) : a = b := by
  obtain ⟨k, h⟩ := h
  have hT := turn_pos
  have h1 : (k : ℚ) * TURN < 1 * TURN := by linarith
  have h2 : (-1 : ℚ) * TURN < (k : ℚ) * TURN := by linarith
  have h1' := lt_of_mul_lt_mul_right h1 hT.le
  have h2' := lt_of_mul_lt_mul_right h2 hT.le
  have h3 : k < 1 := by exact_mod_cast h1'
  have h4 : -1 < k := by exact_mod_cast h2'
  have : k = 0 := by omega
  rw [h, this]; simp

/-- **C33** apart from the argument 2 PI, two angles have the same normal form exactly if they denote the same direction. -/
theorem normalizeAngle_canonical {a b : ℚ} (ha : a ≠ TURN) (hb : b ≠ TURN) :
    normalizeAngle a = normalizeAngle b ↔ SameDir a b := by
  obtain ⟨a1, a2, a3⟩ := normalize_cases a
  obtain ⟨b1, b2, b3⟩ := normalize_cases b
  have a3' : normalizeAngle a < TURN := by rcases a3 with h | h; exact h; exact absurd h.1 ha
  have b3' : normalizeAngle b < TURN := by rcases b3 with h | h; exact h; exact absurd h.1 hb
  constructor
  · intro h
    rw [h] at a1
    exact a1.symm.trans b1
  · intro h
    exact same_small ((a1.trans h).trans b1.symm) a2 a3' b2 b3'

/-- **C33, refuted in general**: 0 and 2 PI denote the same direction but have different normal forms. -/
theorem normalizeAngle_not_canonical : SameDir TURN 0 ∧ normalizeAngle TURN ≠ normalizeAngle 0 := by
  refine ⟨⟨1, by simp⟩, ?_⟩
  rw [((normalizeAngle_range TURN).2.2.2).mpr rfl]
  have : normalizeAngle 0 = 0 := by
    have h := turn_pos
    simp [normalizeAngle, not_lt.mpr h.le]
  rw [this]
  exact turn_pos.ne'

/-- the direction `f` is within half a bin of bin `i` of `N` (lower end included) -/
def InBin (f : ℚ) (N i : ℤ) : Prop :=
  ∃ k : ℤ, i * (TURN / N) - TURN / N / 2 ≤ f + k * TURN ∧ f + k * TURN < i * (TURN / N) + TURN / N / 2

/-- **C34** the bin of an angle is one of `0 .. N-1` and contains the angle, for every angle but `2 PI - bin/2`. -/
theorem contTheta2Disc_bin {f : ℚ} {N : ℤ} (hN : 0 < N) (hf : f ≠ TURN - TURN / N / 2) :
    0 ≤ contTheta2Disc f N ∧ contTheta2Disc f N < N ∧ InBin f N (contTheta2Disc f N) := by
  have hNq : (0 : ℚ) < N := by exact_mod_cast hN
  have hT := turn_pos
  have eT : 2 * PI_CONST = TURN := rfl
  unfold contTheta2Disc
  rw [eT]
  obtain ⟨⟨k, h1⟩, h2, h3⟩ := normalize_cases (f + TURN / N / 2)
  have h3' : normalizeAngle (f + TURN / N / 2) < TURN := by
    rcases h3 with h | h
    · exact h
    · exact absurd (by linarith [h.1]) hf
  generalize normalizeAngle (f + TURN / N / 2) = r at *
  have hb : 0 ≤ r / TURN * N := mul_nonneg (div_nonneg h2 hT.le) hNq.le
  rw [trunc_nonneg hb]
  have f1 := Int.floor_le (r / TURN * N)
  have f2 := Int.lt_floor_add_one (r / TURN * N)
  have hlt : r / TURN * N < N := by
    have : r / TURN < 1 := (div_lt_one hT).mpr h3'
    have := mul_lt_mul_of_pos_right this hNq
    linarith
  refine ⟨Int.floor_nonneg.mpr hb, ?_, k, ?_, ?_⟩
  · rw [Int.floor_lt]; exact hlt
  · have hbin : (0 : ℚ) < TURN / N := div_pos hT hNq
    have := mul_le_mul_of_nonneg_right f1 hbin.le
    have e : r / TURN * N * (TURN / N) = r := by have hpi := pi_pos.ne'; field_simp
    rw [e] at this
    linarith
  · have hbin : (0 : ℚ) < TURN / N := div_pos hT hNq
    have := mul_lt_mul_of_pos_right f2 hbin
    have e : r / TURN * N * (TURN / N) = r := by have hpi := pi_pos.ne'; field_simp
    rw [e] at this
    linarith [add_mul (⌊r / TURN * N⌋ : ℚ) 1 (TURN / N)]

/-- **C34, refuted at one angle**: for `2 PI - bin/2` the returned bin is `N`, outside `0 .. N-1`. -/
theorem contTheta2Disc_out_of_range {N : ℤ} (hN : 0 < N) : contTheta2Disc (TURN - TURN / N / 2) N = N := by
  have hNq : (0 : ℚ) < N := by exact_mod_cast hN
  have hT := turn_pos
  have eT : 2 * PI_CONST = TURN := rfl
  unfold contTheta2Disc
  rw [eT, sub_add_cancel, ((normalizeAngle_range TURN).2.2.2).mpr rfl, div_self hT.ne', one_mul, trunc_nonneg hNq.le]
  simp

/-- **C34** every bin's angle converts back to the bin. -/
theorem disc_cont_disc_theta {N i : ℤ} (h0 : 0 ≤ i) (hi : i < N) : contTheta2Disc (discTheta2Cont i N) N = i := by
  have hN : 0 < N := by omega
  have hNq : (0 : ℚ) < N := by exact_mod_cast hN
  have hT := turn_pos
  have hbin : (0 : ℚ) < TURN / N := div_pos hT hNq
  have eT : 2 * PI_CONST = TURN := rfl
  have hiq : (i : ℚ) + 1 ≤ N := by exact_mod_cast hi
  have h0q : (0 : ℚ) ≤ i := by exact_mod_cast h0
  have eN : (N : ℚ) * (TURN / N) = TURN := by have hpi := pi_pos.ne'; field_simp
  have hle : (i : ℚ) * (TURN / N) + TURN / N ≤ TURN := by
    have := mul_le_mul_of_nonneg_right hiq hbin.le
    rw [eN] at this
    linarith [add_mul (i : ℚ) 1 (TURN / N)]
  have hd : discTheta2Cont i N = i * (TURN / N) := rfl
  have h0b : 0 ≤ (i : ℚ) * (TURN / N) := mul_nonneg h0q hbin.le
  unfold contTheta2Disc
  rw [eT, hd]
  have hnorm : normalizeAngle ((i : ℚ) * (TURN / N) + TURN / N / 2) = i * (TURN / N) + TURN / N / 2 := by
    obtain ⟨h1, h2, h3⟩ := normalize_cases ((i : ℚ) * (TURN / N) + TURN / N / 2)
    have h3' : normalizeAngle ((i : ℚ) * (TURN / N) + TURN / N / 2) < TURN := by
      rcases h3 with h | h
      · exact h
      · linarith [h.1]
    exact same_small h1 h2 h3' (by linarith) (by linarith)
  rw [hnorm]
  have e : ((i : ℚ) * (TURN / N) + TURN / N / 2) / TURN * N = i + 1 / 2 := by have hpi := pi_pos.ne'; field_simp
  rw [e, trunc_nonneg (by linarith), Int.floor_eq_iff]
  constructor <;> linarith

/-- **C34** the angle difference is the smallest rotation between the two directions: it is between 0 and PI, attained, and minimal. -/
theorem minUnsignedAngleDiff_spec (a b : ℚ) :
    0 ≤ minUnsignedAngleDiff a b ∧ minUnsignedAngleDiff a b ≤ PI_CONST ∧
    (∃ k : ℤ, minUnsignedAngleDiff a b = |a - b + k * TURN|) ∧ ∀ k : ℤ, minUnsignedAngleDiff a b ≤ |a - b + k * TURN| := by
  obtain ⟨⟨ka, a1⟩, a2, a3⟩ := normalize_cases a
  obtain ⟨⟨kb, b1⟩, b2, b3⟩ := normalize_cases b
  have hT := turn_pos
  have eT : TURN = 2 * PI_CONST := rfl
  have a3' : normalizeAngle a ≤ TURN := by rcases a3 with h | h; exact h.le; exact h.2.le
  have b3' : normalizeAngle b ≤ TURN := by rcases b3 with h | h; exact h.le; exact h.2.le
  unfold minUnsignedAngleDiff
  simp only
  generalize normalizeAngle a = x at *
  generalize normalizeAngle b = y at *
  have hxy : x - y = a - b + ((ka - kb : ℤ) : ℚ) * TURN := by push_cast; rw [a1, b1]; ring
  have hd0 : 0 ≤ |x - y| := abs_nonneg _
  have hdT : |x - y| ≤ TURN := by rw [abs_le]; constructor <;> linarith
  have hattain : ∃ k : ℤ, (if |x - y| > PI_CONST then |(|x - y| - 2 * PI_CONST)| else |x - y|) = |a - b + k * TURN| := by
    split_ifs with h
    · rcases le_total 0 (x - y) with hs | hs
      · refine ⟨ka - kb - 1, ?_⟩
        rw [abs_of_nonneg hs, hxy]
        congr 1; push_cast; rw [eT]; ring
      · refine ⟨ka - kb + 1, ?_⟩
        rw [abs_of_nonpos hs, hxy, ← abs_neg]
        congr 1; push_cast; rw [eT]; ring
    · exact ⟨ka - kb, by rw [hxy]⟩
  have hle : (if |x - y| > PI_CONST then |(|x - y| - 2 * PI_CONST)| else |x - y|) ≤ PI_CONST := by
    split_ifs with h
    · rw [abs_le]; constructor <;> linarith
    · exact not_lt.mp h
  have hge : 0 ≤ (if |x - y| > PI_CONST then |(|x - y| - 2 * PI_CONST)| else |x - y|) := by
    split_ifs
    · exact abs_nonneg _
    · exact hd0
  refine ⟨hge, hle, hattain, ?_⟩
  obtain ⟨k0, hk0⟩ := hattain
  intro k
  rw [hk0] at hle ⊢
  generalize a - b = c at *
  by_contra hlt
  have hlt := not_le.mp hlt
  -- both differ by a multiple of TURN; one of them is < PI in absolute value, the other at most PI
  have hne : k ≠ k0 := by rintro rfl; exact lt_irrefl _ hlt
  have h1 := abs_le.mp hle
  have h2 := abs_lt.mp (lt_of_lt_of_le hlt hle)
  rcases lt_or_gt_of_ne hne with h | h
  · have hq : (k : ℚ) + 1 ≤ k0 := by exact_mod_cast h
    have := mul_le_mul_of_nonneg_right hq hT.le
    linarith [add_mul (k : ℚ) 1 TURN]
  · have hq : (k0 : ℚ) + 1 ≤ k := by exact_mod_cast h
    have := mul_le_mul_of_nonneg_right hq hT.le
    linarith [add_mul (k0 : ℚ) 1 TURN]

example : (3 : ℚ) ≠ TURN - TURN / (16 : ℤ) / 2 ∧ (3 : ℚ) ≠ TURN := by
  constructor <;> norm_num [TURN, PI_CONST]

end Sbpl.AngleProps
