import Verif.Props.XYTLazy
import Verif.Props.XYTARAEx
import Verif.Props.LazyARAEx
/-! # Lazy ARA* on the (x, y, theta) lattice: a concrete case, and primitives with the same end (C178) -/

namespace Sbpl.XYTLazyProps
open Sbpl XSpec XEnv XCfg GraphSpec LazySpec XHeurProps XYTProps XYTARAProps LazyProps

/-- plan on the map of `hSetup`, with the heuristics of a new environment -/
def exL (st : XEnv) : LEnv :=
  xytLEnv st.cfg (keyNum 3 2) (keyDen 3 2 4) 2 (freshHeur hSetup 1 0 st.cfg.grid (0, 0, 0)) (freshHeur hSetup 1 0 st.cfg.grid (2, 0, 0)) (fun _ => 0) (fun _ => 0)

def exLRun (ie : Nat) : Option LazyARA.Result :=
  match tryX hSetup [] with
  | none => none
  | some st => resOf (mkSt (exL st) true ie 1 1 false 0 2) [99, 99]

theorem exLRun_some {ie : Nat} {v : Bool × List Nat × Nat × Option Nat × List Bool}
    (h : (exLRun ie).map (fun r => (r.found, r.path, r.cost, r.finalEps, r.passes.map (fun p => p.out))) = some v) :
    ∃ stx st st' r, Hist hSetup [] stx ∧ (LazyARA.init (exL stx) stdQueue true 1 ie 1 1 false).run [.setStart 0, .setGoal 2] = some st ∧
      st.replan [99, 99] = .ok (st', r) ∧ (r.found, r.path, r.cost, r.finalEps, r.passes.map (fun p => p.out)) = v := by
  unfold exLRun at h
  split at h
  next => cases h
  next stx h0 =>
    cases hr : resOf (mkSt (exL stx) true ie 1 1 false 0 2) [99, 99] with
    | none => rw [hr] at h; cases h
    | some r =>
      rw [hr] at h
      obtain ⟨st', h2⟩ := resOf_some hr
      exact ⟨stx, _, st', r, tryX_hist hSetup_ok.ok (by simp) h0, mkSt_run _ _ _ _ _ _ _ _, h2, by simpa using h⟩

theorem hSetup_distinct : EndsDistinct hSetup := by
  intro t
  have key : ∀ l : List MPrim, l.Pairwise (fun m m' => m.startTheta = m'.startTheta → m.dX ≠ m'.dX ∨ m.dY ≠ m'.dY) →
      (l.filter (fun m => decide (m.startTheta = t))).Pairwise (fun m m' => m.dX ≠ m'.dX ∨ m.dY ≠ m'.dY ∨
      ¬ ∃ r, UtilsSpec.IsResidue m.endTheta hSetup.T r ∧ UtilsSpec.IsResidue m'.endTheta hSetup.T r) := by
    intro l hl
    rw [List.pairwise_filter]
    refine hl.imp ?_
    intro m m' h h1 h2
    rcases h ((of_decide_eq_true h1).trans (of_decide_eq_true h2).symm) with h | h
    · exact .inl h
    · exact .inr (.inl h)
  exact key _ (by decide)

/-- all the hypotheses on the environment and the heuristics are met -/
theorem exL_ok {stx : XEnv} (hx : Hist hSetup [] stx) : XNumbering hSetup (keyNum 3 2) (keyDen 3 2 4) ∧ LEnvOk (exL stx) ∧ CostAtLeast hSetup 3 ∧
    (∀ g, InRange hSetup g → HeurFrom hSetup 1 (costs hSetup []) g (freshHeur hSetup 1 0 stx.cfg.grid (0, 0, 0) g)) := by
  obtain ⟨N, -, hc, hG, -⟩ := exEnv_ok hx
  obtain ⟨ix, -, -, -⟩ := hist_inv hx
  exact ⟨N, xytL_ok ix.stc hSetup_ok.ok N (fun m hm => Nat.le_trans (by decide) (hc m hm)), hc, hG⟩

/-- initial eps = 3: two passes, neither ended by the clock; the path is the one around the obstacle -/
example : ∃ stx st st' res, Hist hSetup [] stx ∧ HistOk true (exL stx) ([.setStart 0, .setGoal 2] ++ [.replan [99, 99]]) ∧
    (LazyARA.init (exL stx) stdQueue true 1 3 1 1 false).run [.setStart 0, .setGoal 2] = some st ∧ st.replan [99, 99] = .ok (st', res) ∧ res.found = true ∧
    (∀ x ∈ res.passes, x.out = false) ∧ res.path = [0, 6, 9, 15, 21, 3, 4, 5, 11, 17, 23, 20, 2] ∧ res.cost = 64 ∧ res.passes.length = 2 := by
  obtain ⟨stx, st, st', r, h0, h1, h2, h3⟩ := exLRun_some (ie := 3) (by decide +kernel :
    _ = some (true, [0, 6, 9, 15, 21, 3, 4, 5, 11, 17, 23, 20, 2], 64, some 2, [false, false]))
  simp only [Prod.mk.injEq] at h3
  refine ⟨stx, st, st', r, h0, simple_hist (exL_ok h0).2.1 (by decide) rfl, h1, h2, h3.1, ?_, h3.2.1, h3.2.2.1, ?_⟩
  · intro x hx
    have : x.out ∈ r.passes.map (fun p => p.out) := List.mem_map.mpr ⟨x, hx, rfl⟩
    rw [h3.2.2.2.2] at this
    simpa using this
  · have := congrArg List.length h3.2.2.2.2
    simpa using this

/-- initial eps = 1: the theorem shows that the result, found by evaluating few edges, is optimal -/
example {n : Nat} (w : LWalk hSetup (costs hSetup []) (0, 0, 0) (2, 0, 0) n) (hn : n < INFINITECOST) : 64 ≤ n := by
  obtain ⟨stx, st, st', r, h0, h1, h2, h3⟩ := exLRun_some (ie := 1) (by decide +kernel :
    _ = some (true, [0, 6, 9, 15, 21, 3, 4, 5, 11, 17, 23, 20, 2], 64, some 1, [false]))
  simp only [Prod.mk.injEq] at h3
  obtain ⟨N, hE, hc, hG⟩ := exL_ok h0
  have hcut : ∀ x ∈ r.passes, x.out = false := by
    intro x hx
    have : x.out ∈ r.passes.map (fun p => p.out) := List.mem_map.mpr ⟨x, hx, rfl⟩
    rw [h3.2.2.2.2] at this
    simpa using this
  have hok := simple_hist (a := 0) (bs := [99, 99]) (fwd := true) (b := 2) hE (by decide) rfl
  obtain ⟨-, ks, n', -, -, -, -, h4, h5⟩ := lazy_xyt_bound_whole (vel := 1) (E := 1) StdHeap.ok hok h1 rfl h2 (by simp) hcut (by decide) h0 N rfl
    (p := (0, 0, 0)) (q := (2, 0, 0)) (by decide) (by decide) hSetup_distinct (by norm_num) hSetup_fast hSetup_follow
    (fun m hm => Nat.le_trans (by decide) (hc m hm)) ⟨1, by norm_num⟩ hG (by decide) (by decide) (by decide) w (by omega)
  rw [h3.2.2.1] at h4
  omega

/-! ## C178: two primitives with the same end -/

/-- the primitives of `twin` (a detour and a straight move to the same state), the detour blocked by an obstacle at (1, 1) -/
def twin2 : Setup := { twin with goal := (2, 0, 0), map := fun i => if i = 4 then 9 else 0 }

def twinL (st : XEnv) : LEnv := xytLEnv st.cfg (keyNum 3 2) (keyDen 3 2 1) 2 (fun _ _ => 0) (fun _ _ => 0) (fun _ => 0) (fun _ => 0)

def twinRun : Option (LazyARA.Result × Bool) :=
  match tryX twin2 [] with
  | none => none
  | some st => (resOf (mkSt (twinL st) true 1 1 1 false 0 2) [99, 99]).map
      (fun r => (r, (st.cfg.acts 0).any (fun a => decide (st.cfg.succAct (0, 0, 0) a = some ((2, 0, 0), 20)))))

/-- **C178, refuted** "Lazy ARA* finds a path if there is one": two primitives lead from the start to the goal; GetTrueCost only evaluates the first of them, which
is blocked, so the planner (initial eps = 1, never interrupted, consistent heuristic, positive costs) reports that there is no path, although the second primitive
is collision-free and costs 20.  GetSuccs lists it, so the planners that do not evaluate lazily find it. -/
theorem lazy_xyt_missed : ∃ stx st st' res, Hist twin2 [] stx ∧ XNumbering twin2 (keyNum 3 2) (keyDen 3 2 1) ∧ CostAtLeast twin2 20 ∧
    LWalk twin2 (costs twin2 []) (0, 0, 0) (2, 0, 0) 20 ∧ Consistent (twinL stx) 2 ∧
    HistOk true (twinL stx) ([.setStart 0, .setGoal 2] ++ [.replan [99, 99]]) ∧
    (LazyARA.init (twinL stx) stdQueue true 1 1 1 1 false).run [.setStart 0, .setGoal 2] = some st ∧ st.replan [99, 99] = .ok (st', res) ∧
    (∀ x ∈ res.passes, x.out = false) ∧ res.found = false ∧
    keyDen 3 2 1 0 = some (0, 0, 0) ∧ keyDen 3 2 1 2 = some (2, 0, 0) := by
  have h : twinRun.map (fun r => (r.1.found, r.1.passes.map (fun p => p.out), r.2)) = some (false, [false], true) := by decide +kernel
  unfold twinRun at h
  split at h
  next => cases h
  next stx h0 =>
    cases hr : resOf (mkSt (twinL stx) true 1 1 1 false 0 2) [99, 99] with
    | none => rw [hr] at h; cases h
    | some r =>
      rw [hr] at h
      simp only [Option.map_some, Option.some.injEq, Prod.mk.injEq] at h
      obtain ⟨h1, h2, h3⟩ := h
      obtain ⟨st', hr'⟩ := resOf_some hr
      have ok : SetupOk twin2 := ⟨by decide, by decide⟩
      have hx : Hist twin2 [] stx := tryX_hist ok (by simp) h0
      obtain ⟨ix, eg, -, -⟩ := hist_inv hx
      have N : XNumbering twin2 (keyNum 3 2) (keyDen 3 2 1) := key_numbering (s := twin2) (by decide) (by decide)
      have hc : CostAtLeast twin2 20 := by unfold CostAtLeast; decide
      have hE : LEnvOk (twinL stx) := xytL_ok ix.stc ok N (fun m hm => Nat.le_trans (by decide) (hc m hm))
      refine ⟨stx, _, st', r, hx, N, hc, ?_, ?_, simple_hist hE (by decide) rfl, mkSt_run _ _ _ _ _ _ _ _, hr', ?_, h1, by decide, by decide⟩
      · rw [← eg]
        rw [List.any_eq_true] at h3
        obtain ⟨a, ha, h4⟩ := h3
        obtain ⟨m, e⟩ := (act_edge ix.stc ok (p := (0, 0, 0)) (q := (2, 0, 0)) (n := 20) (by unfold InRange InMap; decide)).mp ⟨a, ha, of_decide_eq_true h4⟩
        exact LWalk.snoc (n := 0) m .nil e
      · have hz : ∀ i, (twinL stx).hGoal i = 0 := by
          intro i
          simp only [twinL, xytLEnv, xytPEnv]
          split <;> rfl
        exact ⟨hz 2, fun i j c _ => by rw [hz, hz]; omega⟩
      · intro x hxp
        have : x.out ∈ r.passes.map (fun p => p.out) := List.mem_map.mpr ⟨x, hxp, rfl⟩
        rw [h2] at this
        simpa using this

end Sbpl.XYTLazyProps
