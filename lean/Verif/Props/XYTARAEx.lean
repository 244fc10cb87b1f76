import Verif.Props.XYTARA
import Verif.Props.XYTHeurEx
/-! # ARA* on the (x, y, theta) lattice: a concrete case -/

namespace Sbpl.XYTARAProps
open Sbpl XSpec XEnv XCfg GraphSpec PlannerSpec XHeurProps XYTProps

/-- states numbered by x, then y, then theta -/
def keyNum (W H : Int) (k : XKey) : Nat := (k.1 + W * (k.2.1 + H * k.2.2)).toNat
def keyDen (W H T : Int) (i : Nat) : Option XKey :=
  if (i : Int) < W * (H * T) then some ((i : Int) % W, (i : Int) / W % H, (i : Int) / W / H) else none

theorem key_numbering {s : Setup} (hW : 0 < s.W) (hH : 0 < s.H) : XNumbering s (keyNum s.W s.H) (keyDen s.W s.H s.T) := by
  constructor
  · rintro ⟨x, y, t⟩ ⟨⟨h1, h2, h3, h4⟩, h5, h6⟩
    simp only at h1 h2 h3 h4 h5 h6
    have n1 : 0 ≤ y + s.H * t := by nlinarith
    have n2 : 0 ≤ x + s.W * (y + s.H * t) := by nlinarith
    have n3 : y + s.H * t + 1 ≤ s.H * s.T := by nlinarith
    have hcast : ((x + s.W * (y + s.H * t)).toNat : Int) = x + s.W * (y + s.H * t) := Int.toNat_of_nonneg n2
    have d1 : (x + s.W * (y + s.H * t)) / s.W = y + s.H * t := by
      rw [Int.add_mul_ediv_left _ _ (by omega), Int.ediv_eq_zero_of_lt h1 h2]; omega
    have d2 : (y + s.H * t) / s.H = t := by
      rw [Int.add_mul_ediv_left _ _ (by omega), Int.ediv_eq_zero_of_lt h3 h4]; omega
    unfold keyDen keyNum
    simp only
    rw [hcast, if_pos (by nlinarith), d1, d2, Int.add_mul_emod_self_left, Int.add_mul_emod_self_left, Int.emod_eq_of_lt h1 h2, Int.emod_eq_of_lt h3 h4]
  · intro i k h
    unfold keyDen at h
    split at h
    · next hlt =>
      cases h
      have a1 := Int.emod_nonneg (i : Int) (show s.W ≠ 0 by omega)
      have a2 := Int.emod_lt_of_pos (i : Int) hW
      have b1 := Int.emod_nonneg ((i : Int) / s.W) (show s.H ≠ 0 by omega)
      have b2 := Int.emod_lt_of_pos ((i : Int) / s.W) hH
      have c1 : 0 ≤ (i : Int) / s.W := Int.ediv_nonneg (by omega) (by omega)
      have c2 : 0 ≤ (i : Int) / s.W / s.H := Int.ediv_nonneg c1 (by omega)
      have c3 : (i : Int) / s.W / s.H < s.T := by
        apply Int.ediv_lt_of_lt_mul hH
        apply Int.ediv_lt_of_lt_mul hW
        calc (i : Int) < _ := hlt
          _ = _ := by ring
      have e1 := Int.emod_add_mul_ediv (i : Int) s.W
      have e2 := Int.emod_add_mul_ediv ((i : Int) / s.W) s.H
      refine ⟨?_, ⟨a1, a2, b1, b2⟩, c2, c3⟩
      unfold keyNum
      simp only
      rw [e2, e1]; simp
    · cases h

/-- plan on the map of `hSetup`, with the heuristics of a new environment -/
def exEnv (st : XEnv) : PEnv :=
  xytPEnv st.cfg (keyNum 3 2) (keyDen 3 2 4) (freshHeur hSetup 1 0 st.cfg.grid (0, 0, 0)) (freshHeur hSetup 1 0 st.cfg.grid (2, 0, 0))

def exRun (fwd : Bool) (ie : Nat) : Option ARA.Result :=
  match tryX hSetup [] with
  | none => none
  | some st => ARAProps.planRun (exEnv st) fwd 1 ie 1 1 true [.setGoal 2, .setStart 0] [99, 99]

theorem exRun_some {fwd : Bool} {ie : Nat} {v : Bool × List Nat × Nat × Option Nat} (h : (exRun fwd ie).map (fun r => (r.found, r.path, r.cost, r.finalEps)) = some v) :
    ∃ stx st st' r, Hist hSetup [] stx ∧ (ARA.init (exEnv stx) fwd 1 ie 1 1 true).run [.setGoal 2, .setStart 0] = some st ∧
      st.replan [99, 99] = .ok (st', r) ∧ (r.found, r.path, r.cost, r.finalEps) = v := by
  unfold exRun at h
  split at h
  next => cases h
  next stx h0 =>
    cases hr : ARAProps.planRun (exEnv stx) fwd 1 ie 1 1 true [.setGoal 2, .setStart 0] [99, 99] with
    | none => rw [hr] at h; cases h
    | some r =>
      rw [hr] at h
      obtain ⟨st, st', h1, h2⟩ := ARAProps.planRun_some hr
      exact ⟨stx, st, st', r, tryX_hist hSetup_ok.ok (by simp) h0, h1, h2, by simpa using h⟩

/-- all the hypotheses on the environment and the heuristics are met -/
theorem exEnv_ok {stx : XEnv} (hx : Hist hSetup [] stx) : XNumbering hSetup (keyNum 3 2) (keyDen 3 2 4) ∧ EnvOk (exEnv stx) ∧ CostAtLeast hSetup 3 ∧
    (∀ g, InRange hSetup g → HeurFrom hSetup 1 (costs hSetup []) g (freshHeur hSetup 1 0 stx.cfg.grid (0, 0, 0) g)) ∧
    (∀ g, InRange hSetup g → HeurFrom hSetup 1 (costs hSetup []) g (freshHeur hSetup 1 0 stx.cfg.grid (2, 0, 0) g)) := by
  obtain ⟨ix, eg, -, -⟩ := hist_inv hx
  have N : XNumbering hSetup (keyNum 3 2) (keyDen 3 2 4) := key_numbering (s := hSetup) (by decide) (by decide)
  have hc : CostAtLeast hSetup 3 := by
    intro m hm
    simp only [hSetup, hPrims, List.mem_cons, List.not_mem_nil, or_false] at hm
    rcases hm with rfl | rfl | rfl | rfl | rfl | rfl | rfl | rfl <;> decide
  refine ⟨N, xyt_envOk ix.stc hSetup_ok.ok N (fun m hm => Nat.le_trans (by decide) (hc m hm)), hc, ?_, ?_⟩
  · intro g hg
    rw [eg]
    exact fresh_table hSetup_ok.cell hSetup_ok.thr 0 _ (by decide) (by unfold InRange InMap; decide) hg
  · intro g hg
    rw [eg]
    exact fresh_table hSetup_ok.cell hSetup_ok.thr 0 _ (by decide) (by unfold InRange InMap; decide) hg

/-- forward, with eps = 3: around the obstacle, four turns, four moves, four turns -/
example : ∃ stx st st' res, Hist hSetup [] stx ∧ EnvOk (exEnv stx) ∧ (ARA.init (exEnv stx) true 1 3 1 1 true).run [.setGoal 2, .setStart 0] = some st ∧
    st.replan [99, 99] = .ok (st', res) ∧ res.found = true ∧ res.path = [0, 6, 9, 15, 21, 3, 4, 5, 11, 17, 23, 20, 2] ∧ res.cost = 64 ∧ res.finalEps = some 3 ∧
    keyDen 3 2 4 0 = some (0, 0, 0) ∧ keyDen 3 2 4 2 = some (2, 0, 0) := by
  obtain ⟨stx, st, st', r, h0, h1, h2, h3⟩ := exRun_some (fwd := true) (ie := 3) (by decide +kernel :
    _ = some (true, [0, 6, 9, 15, 21, 3, 4, 5, 11, 17, 23, 20, 2], 64, some 3))
  simp only [Prod.mk.injEq] at h3
  exact ⟨stx, st, st', r, h0, (exEnv_ok h0).2.1, h1, h2, h3.1, h3.2.1, h3.2.2.1, h3.2.2.2, by decide, by decide⟩

/-- backward, with eps = 1: optimal -/
example {n : Nat} (w : LWalk hSetup (costs hSetup []) (0, 0, 0) (2, 0, 0) n) : 64 ≤ n := by
  obtain ⟨stx, st, st', r, h0, h1, h2, h3⟩ := exRun_some (fwd := false) (ie := 1) (by decide +kernel :
    _ = some (true, [0, 6, 9, 15, 21, 3, 4, 5, 11, 17, 23, 20, 2], 64, some 1))
  simp only [Prod.mk.injEq] at h3
  obtain ⟨N, hE, hc, hG, hS⟩ := exEnv_ok h0
  have := (ara_xyt_bound (vel := 1) hE (by simp [OpOk]) h1 rfl rfl (by simp) h2 h3.2.2.2 (by decide) (by decide) h0 N rfl (p := (0, 0, 0)) (q := (2, 0, 0)) (by decide) (by decide)
    (by norm_num) hSetup_fast hSetup_follow hc (k := 0) (.inl ⟨1, by norm_num⟩) hG hS w).2.2 ⟨1, by norm_num⟩ rfl
  rw [h3.2.2.1] at this
  exact this

end Sbpl.XYTARAProps
