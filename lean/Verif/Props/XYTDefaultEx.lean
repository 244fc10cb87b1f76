import Verif.Props.XYTDefaultPlan
import Verif.Props.XYTARAEx
import Mathlib.Analysis.Real.Pi.Bounds
import Mathlib.Analysis.SpecialFunctions.Trigonometric.Bounds
/-! # The lattice without motion primitives: a concrete case with four headings -/

namespace Sbpl.XDflProps
open Sbpl XSpec XEnv XCfg XDfl UtilsSpec XYTProps XYTARAProps PlannerSpec XHeurProps

/-! ## The table of actions for four headings -/

/-- the error of `PI_CONST / 2` -/
noncomputable def dlt : ℝ := ((Utils.PI_CONST : ℚ) : ℝ) / 2 - Real.pi / 2

theorem dlt_small : |dlt| ≤ 1 / 1000 := by
  have h1 := Real.pi_gt_d6
  have h2 := Real.pi_lt_d6
  unfold dlt Utils.PI_CONST
  rw [abs_le]
  push_cast
  constructor <;> linarith

theorem near (k : ℝ) (hk : |k| ≤ 3) : |Real.sin (k * dlt)| < 1 / 2 ∧ 1 / 2 ≤ Real.cos (k * dlt) := by
  have h0 : |k * dlt| ≤ 3 / 1000 := by
    rw [abs_mul]
    calc |k| * |dlt| ≤ 3 * (1 / 1000) := mul_le_mul hk dlt_small (abs_nonneg _) (by norm_num)
      _ = _ := by norm_num
  have h1 := Real.abs_sin_le_abs (x := k * dlt)
  refine ⟨by linarith, ?_⟩
  have h2 := Real.one_sub_sq_div_two_le_cos (x := k * dlt)
  have h3 : (k * dlt) ^ 2 ≤ (3 / 1000) ^ 2 := by
    rw [← sq_abs]
    exact pow_le_pow_left₀ (abs_nonneg _) h0 2
  linarith

theorem step_plus {v : ℝ} (h : 1 / 2 ≤ v) : StepOf v 1 := ⟨fun _ => rfl, fun h' => by linarith, fun _ h' => by linarith⟩
theorem step_minus {v : ℝ} (h : 1 / 2 ≤ v) : StepOf (-v) (-1) := ⟨fun h' => by linarith, fun _ => rfl, fun h' _ => by linarith⟩
theorem step_zero {v : ℝ} (h : |v| < 1 / 2) : StepOf v 0 :=
  ⟨fun h' => by linarith [(abs_lt.mp h).2], fun h' => by linarith [(abs_lt.mp h).1], fun _ _ => rfl⟩
theorem step_zero' {v : ℝ} (h : |v| < 1 / 2) : StepOf (-v) 0 := step_zero (by rwa [abs_neg])

/-- the step for heading `e`, -1 ≤ e ≤ 3 -/
def step4 (e : Int) : Int × Int := if e = 0 then (1, 0) else if e = 1 then (0, 1) else if e = 2 then (-1, 0) else (0, -1)

theorem step4_ok {e : Int} (h1 : -1 ≤ e) (h2 : e ≤ 3) : StepTo (e * (2 * Utils.PI_CONST / (4 : Nat))) (step4 e) := by
  have ang : ∀ e : Int, (((e : ℚ) * (2 * Utils.PI_CONST / (4 : Nat)) : ℚ) : ℝ) = e * (Real.pi / 2) + e * dlt := by
    intro e; unfold dlt; push_cast; ring
  unfold StepTo
  rw [ang]
  interval_cases e
  · have a : ((-1 : Int) : ℝ) * (Real.pi / 2) + ((-1 : Int) : ℝ) * dlt = -(Real.pi / 2 + 1 * dlt) := by push_cast; ring
    rw [a, Real.cos_neg, Real.sin_neg, Real.cos_add, Real.sin_add, Real.cos_pi_div_two, Real.sin_pi_div_two]
    obtain ⟨p, q⟩ := near 1 (by norm_num)
    simp only [zero_mul, one_mul, zero_sub, add_zero, zero_add] at p q ⊢
    exact ⟨step_zero' p, step_minus q⟩
  · have a : ((0 : Int) : ℝ) * (Real.pi / 2) + ((0 : Int) : ℝ) * dlt = 0 := by push_cast; ring
    rw [a, Real.cos_zero, Real.sin_zero]
    exact ⟨step_plus (by norm_num), step_zero (by norm_num)⟩
  · have a : ((1 : Int) : ℝ) * (Real.pi / 2) + ((1 : Int) : ℝ) * dlt = Real.pi / 2 + 1 * dlt := by push_cast; ring
    rw [a, Real.cos_add, Real.sin_add, Real.cos_pi_div_two, Real.sin_pi_div_two]
    obtain ⟨p, q⟩ := near 1 (by norm_num)
    simp only [zero_mul, one_mul, zero_sub, add_zero, zero_add] at p q ⊢
    exact ⟨step_zero' p, step_plus q⟩
  · have a : ((2 : Int) : ℝ) * (Real.pi / 2) + ((2 : Int) : ℝ) * dlt = Real.pi + 2 * dlt := by push_cast; ring
    rw [a, Real.cos_add, Real.sin_add, Real.cos_pi, Real.sin_pi]
    obtain ⟨p, q⟩ := near 2 (by norm_num)
    simp only [zero_mul, sub_zero, zero_add, neg_mul, one_mul] at p q ⊢
    exact ⟨step_minus q, step_zero' p⟩
  · have a : ((3 : Int) : ℝ) * (Real.pi / 2) + ((3 : Int) : ℝ) * dlt = Real.pi + (Real.pi / 2 + 3 * dlt) := by push_cast; ring
    rw [a]
    simp only [Real.cos_add, Real.sin_add, Real.cos_pi, Real.sin_pi, Real.cos_pi_div_two, Real.sin_pi_div_two]
    obtain ⟨p, q⟩ := near 3 (by norm_num)
    simp only [zero_mul, zero_sub, sub_zero, zero_add, add_zero, neg_mul, one_mul, neg_neg] at p q ⊢
    exact ⟨step_zero p, step_minus q⟩

/-- the primitives for four headings, cells of 10 mm, velocity 1 and 3 ms for a turn -/
def prim4 (tind : Int) (aind : Nat) : MPrim :=
  let e := endTheta 4 tind aind
  let d := if aind < 3 then step4 e else (0, 0)
  { startTheta := tind, dX := d.1, dY := d.2, endTheta := e, pts := [], cost := if aind < 3 then 10 else 3,
    swept := some [srcPose 4 (1/100) tind, (Utils.discXY2Cont d.1 (1/100), Utils.discXY2Cont d.2 (1/100), endAngle 4 tind aind)] }

theorem prim4_eq {t : Int} (t0 : 0 ≤ t) (t4 : t < 4) {i : Nat} : prim 4 (1/100) 1 (3/1000) t i = prim4 t i := by
  have hr := end_range (T := 4) (by decide) t0 (by omega) i
  have hd : i < 3 → (dX 4 t i, dY 4 t i) = step4 (endTheta 4 t i) := by
    intro hi
    have h1 := move_step (T := 4) (t := t) hi
    rw [end_angle (by decide) (by decide) t0 (by omega)] at h1
    have h2 := step4_ok hr.1 (by omega)
    exact Prod.ext (stepOf_unique h1.1 h2.1) (stepOf_unique h1.2 h2.2)
  have hxy : dX 4 t i = (if i < 3 then step4 (endTheta 4 t i) else (0, 0)).1 ∧ dY 4 t i = (if i < 3 then step4 (endTheta 4 t i) else (0, 0)).2 := by
    by_cases hi : i < 3
    · rw [if_pos hi, ← hd hi]; exact ⟨rfl, rfl⟩
    · rw [if_neg hi]; unfold dX dY; rw [if_neg hi, if_neg hi]; exact ⟨rfl, rfl⟩
  have hc : cost 4 (1/100) 1 (3/1000) t i = if i < 3 then 10 else 3 := by
    by_cases hi : i < 3
    · rw [if_pos hi]
      apply nat_le_ext
      intro n
      rw [cost_go hi]
      have one : dX 4 t i * dX 4 t i + dY 4 t i * dY 4 t i = 1 := by
        rw [hxy.1, hxy.2, if_pos hi]
        unfold step4
        split_ifs <;> rfl
      rw [one]
      norm_num
    · rw [if_neg hi]
      apply nat_ge_ext
      intro n
      rw [cost_turn hi]
      constructor
      · rintro (rfl | h)
        · omega
        · have : (n : ℚ) ≤ (3 : Nat) := by norm_num at h ⊢; exact h
          exact_mod_cast this
      · intro h
        right
        have : (n : ℚ) ≤ (3 : Nat) := by exact_mod_cast h
        norm_num at this ⊢
        exact this
  unfold prim prim4 endPose
  simp only
  rw [hc, hxy.1, hxy.2]

/-- a map of 3 × 2 cells, the one at (1, 0) blocked -/
def box : Setup :=
  { W := 3, H := 2, T := 4, cs := 1/100, obs := 254, inscr := 254, circ := 1, poly := false, foot := pointFoot (1/100), prims := [],
    map := fun i => if i = 1 then 254 else 0, start := (0, 0, 0), goal := (2, 0, 0) }

def prims4 : List MPrim := (List.range 4).flatMap (fun (t : Nat) => (List.range 5).map (prim4 (t : Int)))

theorem box_setup : setup box 1 (3/1000) = { box with prims := prims4 } := by
  have e : prims 4 (1/100) 1 (3/1000) = prims4 := by
    unfold prims prims4
    apply List.flatMap_congr
    intro t ht
    apply List.map_congr_left
    intro i _
    exact prim4_eq (by omega) (by have := List.mem_range.mp ht; omega)
  unfold setup
  show { box with prims := prims 4 (1/100) 1 (3/1000) } = _
  rw [e]

/-- plan on this map, with the heuristics of a new environment -/
def boxEnv (st : XEnv) : PEnv :=
  xytPEnv st.cfg (keyNum 3 2) (keyDen 3 2 4) (freshHeur box 1 0 st.cfg.grid (0, 0, 0)) (freshHeur box 1 0 st.cfg.grid (2, 0, 0))

def boxRun (fwd : Bool) (ie : Nat) : Option ARA.Result :=
  match tryX { box with prims := prims4 } [] with
  | none => none
  | some st => ARAProps.planRun (boxEnv st) fwd 1 ie 1 1 true [.setGoal 2, .setStart 0] [99, 99]

theorem boxRun_some {fwd : Bool} {ie : Nat} {v : Bool × List Nat × Nat × Option Nat} (h : (boxRun fwd ie).map (fun r => (r.found, r.path, r.cost, r.finalEps)) = some v) :
    ∃ stx st st' r, Hist (setup box 1 (3/1000)) [] stx ∧ (ARA.init (boxEnv stx) fwd 1 ie 1 1 true).run [.setGoal 2, .setStart 0] = some st ∧
      st.replan [99, 99] = .ok (st', r) ∧ (r.found, r.path, r.cost, r.finalEps) = v := by
  unfold boxRun at h
  split at h
  next => cases h
  next stx h0 =>
    cases hr : ARAProps.planRun (boxEnv stx) fwd 1 ie 1 1 true [.setGoal 2, .setStart 0] [99, 99] with
    | none => rw [hr] at h; cases h
    | some r =>
      rw [hr] at h
      obtain ⟨st, st', h1, h2⟩ := ARAProps.planRun_some hr
      have ok : SetupOk { box with prims := prims4 } := by
        rw [← box_setup]; exact setup_ok (by decide) (by decide)
      have hh := tryX_hist ok (by simp) h0
      rw [← box_setup] at hh
      exact ⟨stx, st, st', r, hh, h1, h2, by simpa using h⟩

/-- all the hypotheses on the environment and the heuristics are met -/
theorem boxEnv_ok {stx : XEnv} (hx : Hist (setup box 1 (3/1000)) [] stx) : XNumbering box (keyNum 3 2) (keyDen 3 2 4) ∧ EnvOk (boxEnv stx) ∧
    (∀ g, InRange box g → HeurFrom box 1 (costs box []) g (freshHeur box 1 0 stx.cfg.grid (0, 0, 0) g)) ∧
    (∀ g, InRange box g → HeurFrom box 1 (costs box []) g (freshHeur box 1 0 stx.cfg.grid (2, 0, 0) g)) := by
  obtain ⟨ix, eg, -, -⟩ := hist_inv hx
  have N : XNumbering box (keyNum 3 2) (keyDen 3 2 4) := key_numbering (s := box) (by decide) (by decide)
  refine ⟨N, xyt_envOk (s := setup box 1 (3/1000)) ix.stc hx.1 ⟨N.left, N.right⟩ (default_cost (s := box) (by unfold box; norm_num) (by norm_num)), ?_, ?_⟩
  · intro g hg
    rw [eg]
    exact fresh_table (s := box) (by unfold box; norm_num) (by decide) 0 _ (by decide) (by unfold InRange InMap; decide) hg
  · intro g hg
    rw [eg]
    exact fresh_table (s := box) (by unfold box; norm_num) (by decide) 0 _ (by decide) (by unfold InRange InMap; decide) hg

/-- forward, with eps = 3: around the obstacle -/
example : ∃ stx st st' res, Hist (setup box 1 (3/1000)) [] stx ∧ EnvOk (boxEnv stx) ∧ (ARA.init (boxEnv stx) true 1 3 1 1 true).run [.setGoal 2, .setStart 0] = some st ∧
    st.replan [99, 99] = .ok (st', res) ∧ res.found = true ∧ res.path = [0, 9, 4, 5, 20, 2] ∧ res.cost = 43 ∧ res.finalEps = some 3 := by
  obtain ⟨stx, st, st', r, h0, h1, h2, h3⟩ := boxRun_some (fwd := true) (ie := 3) (by decide +kernel : _ = some (true, [0, 9, 4, 5, 20, 2], 43, some 3))
  simp only [Prod.mk.injEq] at h3
  exact ⟨stx, st, st', r, h0, (boxEnv_ok h0).2.1, h1, h2, h3.1, h3.2.1, h3.2.2.1, h3.2.2.2⟩

/-- backward, with eps = 1: optimal -/
example {n : Nat} {ks : List XKey} (w : DPath box 1 (3/1000) (costs box []) ks n) (w1 : ks.head? = some (0, 0, 0)) (w2 : ks.getLast? = some (2, 0, 0)) : 43 ≤ n := by
  obtain ⟨stx, st, st', r, h0, h1, h2, h3⟩ := boxRun_some (fwd := false) (ie := 1) (by decide +kernel : _ = some (true, [0, 9, 4, 5, 20, 2], 43, some 1))
  simp only [Prod.mk.injEq] at h3
  obtain ⟨N, hE, hG, hS⟩ := boxEnv_ok h0
  have := (ara_default_bound (s := box) (vel := 1) (tt := 3/1000) (m := 3) (k := 0) (by decide) hE (by simp [OpOk]) h1 rfl rfl (by simp) h2 h3.2.2.2 (by decide) (by decide) h0 N rfl
    (p := (0, 0, 0)) (q := (2, 0, 0)) (by decide) (by decide) (by norm_num) (by unfold box; norm_num) (by decide) (by unfold box; norm_num) (by norm_num)
    (.inl ⟨1, by norm_num⟩) hG hS w w1 w2).2.2 ⟨1, by norm_num⟩ rfl
  rw [h3.2.2.1] at this
  exact this

end Sbpl.XDflProps
