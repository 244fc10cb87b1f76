import Verif.Props.XYTMHA
import Verif.Props.XYTARAEx
/-! # MHA* on the (x, y, theta) lattice: concrete cases -/

namespace Sbpl.XYTARAProps
open Sbpl XSpec XEnv XCfg GraphSpec PlannerSpec XHeurProps XYTProps

/-- the heuristics: the one of the environment as anchor, one that is always 0 -/
def mhaH (st : XEnv) (k : Nat) : Nat → Nat → Nat := if k = 0 then (exEnv st).hGoal else fun _ _ => 0

def mhaPar : MHA.Params := ⟨1, 1, 1, false, true⟩

def mhaX (budget : Nat) : Option (Bool × List Nat × Int × Bool) :=
  match tryX hSetup [] with
  | none => none
  | some st => (MHAProps.planRun (exEnv st) (mhaH st) 1 1 [.setGoal 2, .setStart 0] mhaPar budget).map fun r => (r.found, r.path, r.cost, r.exhausted)

theorem mhaX_some {budget : Nat} {v : Bool × List Nat × Int × Bool} (h : mhaX budget = some v) :
    ∃ stx st st' r, Hist hSetup [] stx ∧ MHAProps.Called (exEnv stx) (mhaH stx) 1 1 [.setGoal 2, .setStart 0] st mhaPar 0 2 ∧
      st.replan mhaPar budget = .ok (st', r) ∧ (r.found, r.path, r.cost, r.exhausted) = v := by
  unfold mhaX at h
  split at h
  next => cases h
  next stx h0 =>
    cases hr : MHAProps.planRun (exEnv stx) (mhaH stx) 1 1 [.setGoal 2, .setStart 0] mhaPar budget with
    | none => rw [hr] at h; cases h
    | some r =>
      rw [hr] at h
      obtain ⟨st, st', h1, h2⟩ := MHAProps.planRun_some hr
      exact ⟨stx, st, st', r, tryX_hist hSetup_ok.ok (by simp) h0, ⟨h1, rfl, rfl, by simp [mhaPar], by simp [mhaPar], by simp [mhaPar], by decide, by simp [mhaPar]⟩, h2,
        by simpa using h⟩

/-- C196 is not vacuous: with eps = MHA eps = 1 MHA* finds the path around the obstacle, of cost 64, so no walk is cheaper; it is a path of the lattice; and a time budget that
suffices for the theorem on failure exists. -/
example : (∃ stx st st' res, Hist hSetup [] stx ∧ MHAProps.Called (exEnv stx) (mhaH stx) 1 1 [.setGoal 2, .setStart 0] st mhaPar 0 2 ∧
      st.replan mhaPar 99 = .ok (st', res) ∧ res.found = true ∧ res.path = [0, 6, 9, 15, 21, 3, 4, 5, 11, 17, 23, 20, 2] ∧ res.cost = 64 ∧
      (MHASpec.lastEnv (exEnv stx) (mhaH stx) [.setGoal 2, .setStart 0]).2 0 = (exEnv stx).hGoal ∧
      ∃ ks n, LPath hSetup (costs hSetup []) ks n ∧ ks.head? = some (0, 0, 0) ∧ ks.getLast? = some (2, 0, 0) ∧ n ≤ 64) ∧
    (∀ n, LWalk hSetup (costs hSetup []) (0, 0, 0) (2, 0, 0) n → 64 ≤ n) ∧
    2 * (hSetup.W.toNat * (hSetup.H.toNat * hSetup.T)) < 99 ∧ MHASpec.lastMaxExp 0 [.setGoal 2, .setStart 0] < 1 := by
  have e : mhaX 99 = some (true, [0, 6, 9, 15, 21, 3, 4, 5, 11, 17, 23, 20, 2], 64, false) := by
    decide +kernel
  obtain ⟨stx, st, st', r, h0, cl, h2, h3⟩ := mhaX_some e
  simp only [Prod.mk.injEq] at h3
  obtain ⟨N, hE, hc, hG, hS⟩ := exEnv_ok h0
  obtain ⟨ks, n, -, k1, k2, -, k3, k4, -⟩ := mha_xyt_path (p := (0, 0, 0)) (q := (2, 0, 0)) cl h2 h3.1 (by rw [h3.2.1]; decide) h0 N rfl (by decide) (by decide)
  refine ⟨⟨stx, st, st', r, h0, cl, h2, h3.1, h3.2.1, h3.2.2.1, rfl, ks, n, k3, k1, k2, by rw [h3.2.2.1] at k4; omega⟩, fun n w => ?_, by decide, by decide⟩
  have b := (mha_xyt_complete (vel := 1) (E := 1) (p := (0, 0, 0)) (q := (2, 0, 0)) cl h2 (by decide) (by decide) h0 N rfl rfl (by decide) (by decide) (by norm_num) hSetup_fast
    hSetup_follow ⟨1, by norm_num⟩ hG hS w).1 h3.1
  have l : MHASpec.lastMhaEps 1 [MHA.Op.setGoal 2, .setStart 0] = 1 := by decide
  rw [h3.2.2.1, l] at b
  push_cast at b
  omega

end Sbpl.XYTARAProps
