import Verif.Props.RobArmARA
/-!
# The robot arm: edge costs, equivalence, start coordinates (C114, C118)
-/
set_option linter.unusedSectionVars false

namespace Sbpl.ArmMoreProps
open RobArm ArmSpec ArmPr ArmProps

variable {K : Type} [Field K] [LinearOrder K] [IsStrictOrderedRing K] [FloorRing K] {c : Cfg K}

/-- **C114 (refuted expectation)** GetEdgeCost is 1 for every pair of states other than the goal, whether or not there is an edge between them. -/
theorem edgeCost_always_one (ok : CfgOk c) (hne : c.links ≠ []) (fine : FineSteps c) (hs : Canon c c.startCoord) {e : Env K} (hr : Reached c e)
    {i j : Nat} (hi : i < e.table.length) (hj : j < e.table.length) (i1 : i ≠ 1) (j1 : j ≠ 1) : e.edgeCost i j = .ok 1 := by
  obtain ⟨vs, g, inv, _⟩ := reached_inv ok hne fine hs hr
  obtain ⟨x, hx⟩ : ∃ x, e.table[i]? = some x := ⟨_, List.getElem?_eq_getElem hi⟩
  obtain ⟨y, hy⟩ : ∃ y, e.table[j]? = some y := ⟨_, List.getElem?_eq_getElem hj⟩
  unfold Env.edgeCost
  rw [hx, hy]
  dsimp only
  rw [inv.cfg]
  exact cost_valid ok (entry_ok inv hs vs i1 hx).2.1 (entry_ok inv hs vs j1 hy).2.1

/-- **C114** AreEquivalent holds exactly for states whose end effectors are in the same cell; it identifies a state with the goal exactly if its end effector is in the
goal cell. -/
theorem areEquivalent_iff (ok : CfgOk c) (hne : c.links ≠ []) (fine : FineSteps c) (hs : Canon c c.startCoord) {e : Env K} (hr : Reached c e)
    {i j : Nat} {x y : Entry} (hx : e.table[i]? = some x) (hy : e.table[j]? = some y) (i1 : i ≠ 1) (j1 : j ≠ 1) :
    (∃ b, e.areEquivalent i j = .ok b ∧ (b = true ↔ ∃ p, PointIn c (effector c x.coord) p ∧ PointIn c (effector c y.coord) p)) ∧
    (∃ b, e.areEquivalent i 1 = .ok b ∧ (b = true ↔ AtGoal c x.coord)) := by
  obtain ⟨vs, g, inv, _⟩ := reached_inv ok hne fine hs hr
  obtain ⟨_, vx, ex⟩ := entry_ok inv hs vs i1 hx
  obtain ⟨_, vy, ey⟩ := entry_ok inv hs vs j1 hy
  obtain ⟨_, _, px⟩ := endCell_valid ok hne vx
  obtain ⟨_, _, py⟩ := endCell_valid ok hne vy
  constructor
  · refine ⟨_, by unfold Env.areEquivalent; rw [hx, hy], ?_⟩
    rw [Bool.and_eq_true, decide_eq_true_iff, decide_eq_true_iff]
    constructor
    · rintro ⟨h1, h2⟩
      refine ⟨(x.ex, x.ey), by rw [ex]; exact px, ?_⟩
      rw [h1, h2, ey]; exact py
    · rintro ⟨p, h1, h2⟩
      have a := pointIn_unique ok px h1
      have b := pointIn_unique ok py h2
      rw [← ex] at a; rw [← ey] at b
      rw [← b] at a
      exact ⟨congrArg Prod.fst a, congrArg Prod.snd a⟩
  · refine ⟨_, by unfold Env.areEquivalent; rw [hx, inv.goal], ?_⟩
    rw [Bool.and_eq_true, decide_eq_true_iff, decide_eq_true_iff, atGoal_iff ok hne vx, ← ex]
    simp [Prod.ext_iff]

/-! ## Start coordinates -/

theorem u16_of_lt {z : Nat} (h : z < 65536) : u16 (z : Int) = z := by unfold u16; omega

/-- **C118** A start angle between 0 and (vals + 1/2) * delta (in particular any angle of a full turn) becomes a value of the joint at most half a step away, cyclically. -/
theorem coord_near {angle delta : K} {vals : Nat} (hd : 0 < delta) (hv : 1 ≤ vals) (hv16 : vals < 65536) (h0 : 0 ≤ angle) (h1 : angle < ((vals : K) + 1 / 2) * delta) :
    coordOf angle delta vals < vals ∧
    (|angle - (coordOf angle delta vals : K) * delta| ≤ delta / 2 ∨ (coordOf angle delta vals = 0 ∧ |angle - (vals : K) * delta| ≤ delta / 2)) := by
  have hq : (angle + delta * (1 / 2)) / delta = angle / delta + 1 / 2 := by field_simp
  have hnn : 0 ≤ angle / delta + 1 / 2 := by positivity
  obtain ⟨n, hn⟩ : ∃ n : Nat, ⌊angle / delta + 1 / 2⌋ = (n : Int) := ⟨_, (Int.toNat_of_nonneg (Int.floor_nonneg.mpr hnn)).symm⟩
  have hn1 : ((n : Nat) : K) ≤ angle / delta + 1 / 2 := by have := Int.floor_le (angle / delta + 1 / 2); rw [hn] at this; exact_mod_cast this
  have hn2 : angle / delta + 1 / 2 < (n : K) + 1 := by have := Int.lt_floor_add_one (angle / delta + 1 / 2); rw [hn] at this; exact_mod_cast this
  have e1 : angle / delta * delta = angle := div_mul_cancel₀ _ hd.ne'
  have hle : n ≤ vals := by
    have h2 : angle / delta < (vals : K) + 1 / 2 := by rw [div_lt_iff₀ hd]; exact h1
    have : (n : K) < vals + 1 := by linarith
    have : n < vals + 1 := by exact_mod_cast this
    omega
  have near : |angle - (n : K) * delta| ≤ delta / 2 := by
    rw [abs_le]; constructor <;> nlinarith
  have hc : coordOf angle delta vals = if n = vals then 0 else n := by
    unfold coordOf ctrunc
    rw [hq, if_pos hnn, hn, u16_of_lt (by omega)]
  rw [hc]
  by_cases e : n = vals
  · rw [if_pos e]; subst e
    exact ⟨by omega, .inr ⟨rfl, near⟩⟩
  · rw [if_neg e]
    exact ⟨by omega, .inl near⟩

/-- **C118** the angle of a value is converted back to this value -/
theorem coord_roundtrip {delta : K} {vals k : Nat} (hd : 0 < delta) (hv16 : vals < 65536) (hk : k < vals) : coordOf ((k : K) * delta) delta vals = k := by
  have hk0 : (0 : K) ≤ k := by exact_mod_cast Nat.zero_le k
  obtain ⟨h1, h2⟩ := coord_near (angle := (k : K) * delta) hd (by omega) hv16 (by positivity) (by
    have : (k : K) < vals := by exact_mod_cast hk
    nlinarith)
  rcases h2 with h2 | ⟨_, h2⟩
  · rw [← sub_mul, abs_mul, abs_of_pos hd] at h2
    have : |(k : K) - (coordOf ((k : K) * delta) delta vals : K)| ≤ 1 / 2 := by
      by_contra hc
      push Not at hc
      nlinarith
    have : |((k : Int) - (coordOf ((k : K) * delta) delta vals : Int) : Int)| < 1 := by
      have h3 : ((|((k : Int) - (coordOf ((k : K) * delta) delta vals : Int) : Int)| : Int) : K) < 1 := by
        push_cast
        linarith
      exact_mod_cast h3
    rw [Int.abs_lt_one_iff] at this
    omega
  · exfalso
    rw [← sub_mul, abs_mul, abs_of_pos hd] at h2
    have h3 : (k : K) + 1 ≤ vals := by exact_mod_cast hk
    rw [abs_of_neg (by linarith)] at h2
    nlinarith

/-- **C118 (refuted expectation)** start angles that are not in that range: an angle that is negative by at least 3/2 steps becomes a 16-bit value above the joint's
number of values -/
theorem coord_negative {angle delta : K} {vals n : Nat} (hd : 0 < delta) (hn : 1 ≤ n) (hv : vals + n < 65536) (h0 : -((n : K) + 3 / 2) * delta < angle)
    (h1 : angle ≤ -((n : K) + 1 / 2) * delta) : coordOf angle delta vals = 65536 - n ∧ ¬ coordOf angle delta vals < vals := by
  have hq : (angle + delta * (1 / 2)) / delta = angle / delta + 1 / 2 := by field_simp
  have e1 : angle / delta * delta = angle := div_mul_cancel₀ _ hd.ne'
  have a1 : angle / delta ≤ -((n : K) + 1 / 2) := by rw [div_le_iff₀ hd]; exact h1
  have a2 : -((n : K) + 3 / 2) < angle / delta := by rw [lt_div_iff₀ hd]; exact h0
  have hn0 : (1 : K) ≤ n := by exact_mod_cast hn
  have hneg : ¬ 0 ≤ angle / delta + 1 / 2 := by intro h; linarith
  have hc : ⌈angle / delta + 1 / 2⌉ = -(n : Int) := by
    rw [Int.ceil_eq_iff]; push_cast; constructor <;> linarith
  have : coordOf angle delta vals = 65536 - n := by
    unfold coordOf ctrunc
    rw [hq, if_neg hneg, hc]
    have : u16 (-(n : Int)) = 65536 - n := by unfold u16; omega
    rw [this]
    dsimp only
    rw [if_neg (by omega)]
  exact ⟨this, by omega⟩

/-- **C118 (refuted expectation)** ... and so does an angle beyond a full turn -/
theorem coord_beyond {angle delta : K} {vals n : Nat} (hd : 0 < delta) (hn : vals < n) (hv : n < 65536) (h0 : ((n : K) - 1 / 2) * delta ≤ angle)
    (h1 : angle < ((n : K) + 1 / 2) * delta) : coordOf angle delta vals = n ∧ ¬ coordOf angle delta vals < vals := by
  have hq : (angle + delta * (1 / 2)) / delta = angle / delta + 1 / 2 := by field_simp
  have a1 : angle / delta < (n : K) + 1 / 2 := by rw [div_lt_iff₀ hd]; exact h1
  have a2 : (n : K) - 1 / 2 ≤ angle / delta := by rw [le_div_iff₀ hd]; exact h0
  have hn0 : (1 : K) ≤ n := by exact_mod_cast (by omega : 1 ≤ n)
  have hnn : 0 ≤ angle / delta + 1 / 2 := by linarith
  have hc : ⌊angle / delta + 1 / 2⌋ = (n : Int) := by
    rw [Int.floor_eq_iff]; push_cast; constructor <;> linarith
  have : coordOf angle delta vals = n := by
    unfold coordOf ctrunc
    rw [hq, if_pos hnn, hc, u16_of_lt hv]
    dsimp only
    rw [if_neg (by omega)]
  exact ⟨this, by omega⟩

end Sbpl.ArmMoreProps
