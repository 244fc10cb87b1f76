import Verif.Props.XYTDefaultEx
import Verif.Props.ARABlocked
/-! # The lattice without motion primitives: a start between the inscribed and the obstacle threshold -/

namespace Sbpl.XDflProps
open Sbpl XSpec XEnv XCfg XDfl UtilsSpec XYTProps XYTARAProps PlannerSpec XHeurProps

/-- a map of 3 × 2 cells; the cost of the start's cell is between the thresholds, the other cells cost nothing -/
def box2 : Setup := { box with inscr := 150, map := fun i => if i = 0 then 200 else 0 }

theorem box2_setup : setup box2 1 (3/1000) = { box2 with prims := prims4 } := by
  have h := congrArg Setup.prims box_setup
  unfold setup at h ⊢
  show { box2 with prims := prims 4 (1/100) 1 (3/1000) } = _
  exact congrArg (fun q => { box2 with prims := q }) h

/-- plan on this map, with the heuristics of a new environment -/
def box2Env (st : XEnv) : PEnv :=
  xytPEnv st.cfg (keyNum 3 2) (keyDen 3 2 4) (freshHeur box2 1 0 st.cfg.grid (0, 0, 0)) (freshHeur box2 1 0 st.cfg.grid (2, 0, 0))

def box2Succs : Option (List (Nat × Nat) × List (Nat × Nat)) :=
  (tryX { box2 with prims := prims4 } []).map (fun st => ((box2Env st).succs 2 0, (box2Env st).succs 2 1))

theorem box2_hist : ∃ stx, Hist (setup box2 1 (3/1000)) [] stx ∧ (1, 2010) ∈ (box2Env stx).succs 2 0 ∧ (2, 10) ∈ (box2Env stx).succs 2 1 := by
  have h : box2Succs.map (fun r => decide ((1, 2010) ∈ r.1) && decide ((2, 10) ∈ r.2)) = some true := by decide +kernel
  unfold box2Succs at h
  cases e : tryX { box2 with prims := prims4 } [] with
  | none => rw [e] at h; cases h
  | some st =>
    rw [e] at h
    simp only [Option.map_some, Option.some.injEq, Bool.and_eq_true, decide_eq_true_eq] at h
    have ok : SetupOk { box2 with prims := prims4 } := by
      rw [← box2_setup]; exact setup_ok (by decide) (by decide)
    have hh := tryX_hist ok (by simp) e
    rw [← box2_setup] at hh
    exact ⟨st, hh, h.1, h.2⟩

theorem box2_values : ((freshHeur box2 1 0 (costs box2 []) (0, 0, 0) (2, 0, 0) (0, 0, 0)).toNat, (freshHeur box2 1 0 (costs box2 []) (2, 0, 0) (0, 0, 0) (2, 0, 0)).toNat) =
    (INFINITECOST, INFINITECOST) := by decide +kernel

/-- **C185** There is a path of cost 2020 from (0, 0, 0) to (2, 0, 0): two moves ahead. -/
theorem box2_path : DPath box2 1 (3/1000) (costs box2 []) [(0, 0, 0), (1, 0, 0), (2, 0, 0)] 2020 := by
  obtain ⟨stx, hx, h1, h2⟩ := box2_hist
  obtain ⟨ix, eg, -, -⟩ := hist_inv hx
  have N : XNumbering (setup box2 1 (3/1000)) (keyNum 3 2) (keyDen 3 2 4) := key_numbering (s := setup box2 1 (3/1000)) (by decide) (by decide)
  obtain ⟨-, p, q, m, e1, e2, ed⟩ := (succs_edge ix.stc hx.1 N).mp h1
  obtain ⟨-, p', q', m', e1', e2', ed'⟩ := (succs_edge ix.stc hx.1 N).mp h2
  have k0 : keyDen 3 2 4 0 = some (0, 0, 0) := by decide
  have k1 : keyDen 3 2 4 1 = some (1, 0, 0) := by decide
  have k2 : keyDen 3 2 4 2 = some (2, 0, 0) := by decide
  rw [k0] at e1; cases e1
  rw [k1] at e2; cases e2
  rw [k1] at e1'; cases e1'
  rw [k2] at e2'; cases e2'
  rw [eg] at ed ed'
  exact .cons ((default_edge (by decide) (by decide)).mp ⟨m, ed⟩) (.cons ((default_edge (by decide) (by decide)).mp ⟨m', ed'⟩) (.single _))

/-- **C185** The planner reports that there is none, forward or backward, with any eps ≥ 1 and any clock. -/
theorem box2_not_found {stx : XEnv} (hx : Hist (setup box2 1 (3/1000)) [] stx) {fwd : Bool} {D ie fe de : Nat} {fs : Bool} {st st' : ARA} {bs : List Nat} {res : ARA.Result}
    (hD : 0 < D) (h1 : D ≤ ie) (hrun : (ARA.init (box2Env stx) fwd D ie fe de fs).run [.setGoal 2, .setStart 0] = some st) (hr : st.replan bs = .ok (st', res)) :
    res.found = false := by
  obtain ⟨ix, eg, -, -⟩ := hist_inv hx
  have N : XNumbering (setup box2 1 (3/1000)) (keyNum 3 2) (keyDen 3 2 4) := key_numbering (s := setup box2 1 (3/1000)) (by decide) (by decide)
  have he : EnvOk (box2Env stx) := xyt_envOk ix.stc hx.1 N (default_cost (s := box2) (by unfold box2 box; norm_num) (by norm_num))
  have v := Prod.mk.inj box2_values
  have k0 : keyDen 3 2 4 0 = some (0, 0, 0) := by decide
  have k2 : keyDen 3 2 4 2 = some (2, 0, 0) := by decide
  have eg' : stx.cfg.grid = costs box2 [] := eg
  refine (ARAProps.infinite_heuristic (a := 0) (b := 2) he (by simp [OpOk]) hrun rfl rfl rfl hD h1 (by simp) (by decide) ?_ hr).1
  cases fwd
  · have : (box2Env stx).hStart 0 2 = INFINITECOST := by
      unfold box2Env xytPEnv
      simp only [k0, k2]
      rw [eg']; exact v.2
    show D * INFINITECOST ≤ D * (box2Env stx).hStart 0 2
    rw [this]
  · have : (box2Env stx).hGoal 2 0 = INFINITECOST := by
      unfold box2Env xytPEnv
      simp only [k0, k2]
      rw [eg']; exact v.1
    show D * INFINITECOST ≤ D * (box2Env stx).hGoal 2 0
    rw [this]

def box2Run (fwd : Bool) : Option ARA.Result :=
  match tryX { box2 with prims := prims4 } [] with
  | none => none
  | some st => ARAProps.planRun (box2Env st) fwd 1 1 1 1 true [.setGoal 2, .setStart 0] [99, 99]

/-- such calls of the planner return -/
example (fwd : Bool) : ∃ stx st st' res, Hist (setup box2 1 (3/1000)) [] stx ∧ (ARA.init (box2Env stx) fwd 1 1 1 1 true).run [.setGoal 2, .setStart 0] = some st ∧
    st.replan [99, 99] = .ok (st', res) := by
  have h : (box2Run fwd).isSome = true := by cases fwd <;> decide +kernel
  unfold box2Run at h
  cases e : tryX { box2 with prims := prims4 } [] with
  | none => rw [e] at h; cases h
  | some st =>
    rw [e] at h
    simp only at h
    obtain ⟨r, hr⟩ := Option.isSome_iff_exists.mp h
    obtain ⟨st1, st2, h1, h2⟩ := ARAProps.planRun_some hr
    have ok : SetupOk { box2 with prims := prims4 } := by
      rw [← box2_setup]; exact setup_ok (by decide) (by decide)
    have hh := tryX_hist ok (by simp) e
    rw [← box2_setup] at hh
    exact ⟨st, st1, st2, r, hh, h1, h2⟩

end Sbpl.XDflProps
