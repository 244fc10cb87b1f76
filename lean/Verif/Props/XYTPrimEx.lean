import Verif.Props.XYTPrim
/-!
# Motion primitives: concrete costs, and a primitive that is accepted although it is too fast for the heuristics (C138 – C141)
-/

namespace Sbpl.XYTPrimProps
open XSpec XPrim Utils XEnv AngleProps XHeurProps XYTProps

/-- one metre forward, and a quarter turn on the spot, for two of four headings -/
def fwd1 : RawPrim := ⟨0, 1, 0, 0, 1, [(0, 0, 0), (1/2, 0, 0), (1, 0, 0)]⟩
def turn1 : RawPrim := ⟨0, 0, 0, 1, 3, [(0, 0, 0), (0, 0, PI_CONST / 2)]⟩

/-- their costs at 2 m/s and half a second for 45 degrees: 500 ms, and 3 times 1000 ms -/
example : (mkPrim 4 2 (1/2) fwd1).cost = 500 ∧ (mkPrim 4 2 (1/2) turn1).cost = 3000 := by
  have hq : angularDist 4 turn1 = PI_CONST / 2 := by
    have : angularDist 4 turn1 = PI_CONST / 2 := by decide +kernel
    exact this
  have h0 : angularDist 4 fwd1 = 0 := by decide +kernel
  have l1 : linearDist fwd1.pts = 1 := by
    have e1 : ((1 / 2 - 0) * (1 / 2 - 0) + (0 - 0) * (0 - 0) : ℚ) = (1/2) * (1/2) := by norm_num
    have e2 : ((1 - 1 / 2) * (1 - 1 / 2) + (0 - 0) * (0 - 0) : ℚ) = (1/2) * (1/2) := by norm_num
    simp only [fwd1, linearDist, e1, e2]
    push_cast
    rw [Real.sqrt_mul_self (by norm_num)]
    norm_num
  have l2 : linearDist turn1.pts = 0 := by simp [turn1, linearDist]
  have b1 : baseCost 4 2 (1/2) fwd1 = 500 := by
    have c := cost_least 4 (vel := 2) (tt := 1/2) (by norm_num) (by norm_num) fwd1
    rw [l1, h0] at c
    refine le_antisymm ((c 500).mpr ⟨by norm_num, by norm_num [PI_CONST]⟩) ?_
    have := (c _).mp (le_refl _)
    have h : (500 : ℝ) ≤ ((baseCost 4 2 (1/2) fwd1 : ℤ) : ℝ) := by have := this.1; push_cast at this; linarith
    exact_mod_cast h
  have b2 : baseCost 4 2 (1/2) turn1 = 1000 := by
    have c := cost_least 4 (vel := 2) (tt := 1/2) (by norm_num) (by norm_num) turn1
    rw [l2, hq] at c
    refine le_antisymm ((c 1000).mpr ⟨by norm_num, by push_cast; linarith⟩) ?_
    have := (c _).mp (le_refl _)
    have hp := pi_pos
    have h : (1000 : ℚ) ≤ ((baseCost 4 2 (1/2) turn1 : ℤ) : ℚ) := by
      by_contra hlt
      have := mul_lt_mul_of_pos_right (not_le.mp hlt) (by linarith : 0 < PI_CONST / 4)
      linarith
    exact_mod_cast h
  constructor
  · show (baseCost 4 2 (1/2) fwd1 * fwd1.mult).toNat = 500
    rw [b1]; rfl
  · show (baseCost 4 2 (1/2) turn1 * turn1.mult).toNat = 3000
    rw [b2]; rfl

/-- the hypotheses of C138 and C139 hold of these primitives -/
example : (∀ r ∈ [fwd1, turn1], RawExact 1 r ∧ RawOk 4 r ∧ (r.dX ≠ 0 ∨ r.dY ≠ 0 ∨ ¬ ∃ k, r.endTheta = r.startTheta + k * 4)) ∧
    checkEnd 1 4 fwd1 = .ok true ∧ checkEnd 1 4 turn1 = .ok true := by
  refine ⟨?_, by decide +kernel, by decide +kernel⟩
  intro r hr
  simp only [List.mem_cons, List.not_mem_nil, or_false] at hr
  rcases hr with rfl | rfl
  · refine ⟨⟨⟨0, rfl⟩, ⟨0, by simp [fwd1]⟩⟩, ⟨by decide, by decide, by decide⟩, .inl (by decide)⟩
  · refine ⟨⟨⟨0, rfl⟩, ⟨PI_CONST / 2, by simp [turn1]⟩⟩, ⟨by decide, by decide, by decide⟩, .inr (.inr ?_)⟩
    rintro ⟨k, hk⟩
    simp only [turn1] at hk
    omega

/-- a list of three headings that are not uniform -/
example : HeadingSet 3 [0, 1, 2, 2 * PI_CONST] ∧ contTheta2DiscSet 3 [0, 1, 2, 2 * PI_CONST] (-1) = .ok 0 ∧ contTheta2DiscSet 3 [0, 1, 2, 2 * PI_CONST] 4 = .ok 2 := by
  refine ⟨⟨by decide, rfl, rfl, rfl, ?_⟩, by decide +kernel, by decide +kernel⟩
  have : (2 : ℚ) < 2 * PI_CONST := by norm_num [PI_CONST]
  simp; refine ⟨?_, ?_, ?_⟩ <;> norm_num [PI_CONST]

/-! ## C141 -/

/-- half a cell forward, to the border of the next cell -/
def half : RawPrim := ⟨0, 1, 0, 0, 1, [(0, 0, 0), (1/20, 0, 0)]⟩

/-- the environment with this primitive, cells of 100 mm, velocity 1 m/s -/
def halves : Setup :=
  { W := 3, H := 1, T := 1, cs := 1/10, obs := 254, inscr := 253, circ := 1, poly := false, foot := pointFoot (1/10),
    prims := [⟨0, 1, 0, 0, [(0, 0, 0), (1/20, 0, 0)], 50, none⟩], map := fun _ => 0, start := (0, 0, 0), goal := (2, 0, 0) }

theorem half_cost : mkPrim 1 1 1 half = ⟨0, 1, 0, 0, [(0, 0, 0), (1/20, 0, 0)], 50, none⟩ := by
  have h0 : angularDist 1 half = 0 := by decide +kernel
  have l1 : linearDist half.pts = 1/20 := by
    have e1 : ((1 / 20 - 0) * (1 / 20 - 0) + (0 - 0) * (0 - 0) : ℚ) = (1/20) * (1/20) := by norm_num
    simp only [half, linearDist, e1]
    push_cast
    rw [Real.sqrt_mul_self (by norm_num)]
    norm_num
  have b1 : baseCost 1 1 1 half = 50 := by
    have c := cost_least 1 (vel := 1) (tt := 1) (by norm_num) (by norm_num) half
    rw [l1, h0] at c
    refine le_antisymm ((c 50).mpr ⟨by norm_num, by norm_num [PI_CONST]⟩) ?_
    have := (c _).mp (le_refl _)
    have h : (50 : ℝ) ≤ ((baseCost 1 1 1 half : ℤ) : ℝ) := by have := this.1; push_cast at this; linarith
    exact_mod_cast h
  have : (baseCost 1 1 1 half * half.mult).toNat = 50 := by rw [b1]; rfl
  unfold mkPrim
  rw [this]; rfl

/-- **C141** (refuted expectation) The check of the end pose makes primitives safe for the heuristics: a primitive that ends anywhere in its end cell is accepted, its cost is computed from the
shorter way, and on an empty map the heuristic of the start (200) is twice the cost of the way to the goal (100). -/
theorem accepted_too_fast : halves.prims = [half].map (mkPrim halves.T 1 1) ∧ checkEnd halves.cs halves.T half = .ok true ∧
    ∃ h, HHist halves 1 0 [.ensure true] h ∧ LWalk halves (costs halves (calls [.ensure true])) (startOf halves []) (goalOf halves []) 100 ∧
      okOf (h.env.getCoord h.env.startId) = some (startOf halves []) ∧ okOf (h.goalHeur h.env.startId) = some 200 := by
  refine ⟨by rw [List.map_cons, List.map_nil]; exact congrArg (fun x => [x]) half_cost.symm, by decide +kernel, ?_⟩
  have hs : HSetup halves 1 := by
    refine ⟨⟨by decide, ?_⟩, by norm_num, by norm_num [halves], by decide⟩
    intro m hm
    simp only [halves, List.mem_cons, List.not_mem_nil, or_false] at hm
    subst hm; decide
  obtain ⟨h, h1, h2⟩ := tryH_ok (s := halves) (vel := 1) (ops := [.ensure true]) (f := fun h =>
    decide (okOf (h.env.getCoord h.env.startId) = some (startOf halves [])) && (decide (okOf (h.goalHeur h.env.startId) = some 200) &&
    (decide (h.env.cfg.succAct (0, 0, 0) (mkAct halves.cs halves.foot 0 ⟨0, 1, 0, 0, [(0, 0, 0), (1/20, 0, 0)], 50, none⟩) = some ((1, 0, 0), 50)) &&
     decide (h.env.cfg.succAct (1, 0, 0) (mkAct halves.cs halves.foot 0 ⟨0, 1, 0, 0, [(0, 0, 0), (1/20, 0, 0)], 50, none⟩) = some ((2, 0, 0), 50)))))
    hs (by intro op ho; simp at ho) (by decide +kernel)
  simp only [Bool.and_eq_true, decide_eq_true_iff] at h2
  refine ⟨h, h1, ?_, h2.1, h2.2.1⟩
  have w1 := LWalk.snoc (s := halves) (grid := costs halves (calls [.ensure true])) (p := (0, 0, 0)) (b := (0, 0, 0)) (t := (1, 0, 0)) (n := 0) (c := 50) _ .nil
    (edge_of h1 (by simp [halves]) rfl h2.2.2.1)
  have w2 := LWalk.snoc _ w1 (edge_of h1 (by simp [halves]) rfl h2.2.2.2)
  exact w2

end Sbpl.XYTPrimProps
