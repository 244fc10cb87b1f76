import Verif.Props.MLev
import Verif.Props.MLevARA
import Verif.Props.XYTEx
import Verif.Props.XYTARAEx
import Verif.Model.Footprint
/-! # Lattice navigation with additional levels: concrete environments, and a counterexample -/

namespace Sbpl.MLevProps
open XEnv XSpec MEnv XYTProps XYTARAProps GraphSpec PlannerSpec XHeurProps MLevARAProps

/-- initialise and run -/
def tryM (s : Setup) (ops : List MOp) : Option MEnv :=
  match MEnv.init s with
  | .ok st => st.run ops
  | .error _ => none

theorem tryM_ok {s : Setup} {ops : List MOp} {f : MEnv → Bool} (ok : SetupOk s) (hc : ∀ op ∈ ops, MCallOk s op)
    (h : (tryM s ops).any f = true) : ∃ st, MHist s ops st ∧ f st = true := by
  cases ht : tryM s ops with
  | none => rw [ht] at h; cases h
  | some st =>
    rw [ht] at h
    refine ⟨st, ?_, h⟩
    unfold tryM at ht
    split at ht
    next st0 h0 => exact ⟨ok, hc, st0, h0, ht⟩
    next => cases ht

/-- what GetSuccs, GetPreds etc. report, without the actions -/
def briefM (r : Except XErr (MEnv × List (Nat × Nat × XAct))) : Option (List (Nat × Nat × Nat)) :=
  match r with
  | .ok r => some (r.2.map (fun e => (e.1, e.2.1, e.2.2.aind)))
  | .error _ => none

/-- an additional level: point robot -/
def ptLevel : LevelIn := { foot := pointFoot 1, poly := false, inscr := 8, circ := 5 }
/-- an additional level: large square robot -/
def sqLevel : LevelIn := { foot := sqFoot, poly := true, inscr := 8, circ := 3 }

/-- two levels, cost 4 at cell (1, 0) of the first, 1 at cell (0, 0) of the second -/
def demoOps : List MOp := [.initLevels [ptLevel, sqLevel], .updateLev 1 0 4 0, .setMapLev (fun i => if i = 0 then 1 else 0) 1, .base (.getSuccs 0), .base (.updateCost 0 0 3)]

/-- non-vacuity of C128, C129, C131: the obstacle at cell (1, 1) of the base level stops the robot only where its centre, a point at the base level, goes -/
example : ∃ st, MHist demo demoOps st ∧ briefM (st.getSuccs 0) = some [(2, 5000, 0), (3, 1200, 1)] ∧
    briefM (st.getPreds 2) = some [(0, 5000, 0), (4, 1500, 1)] ∧ okOf (st.getMapCost 1 0) = some 4 ∧ okOf (st.getMapCost 0 0) = some 3 ∧ okOf (st.isObstacle 1 1) = some true ∧
    st.isValidConfig demo.foot (fun _ => 0) 1 0 0 = false := by
  obtain ⟨st, h1, h2⟩ := tryM_ok (s := demo) (ops := demoOps) (f := fun st =>
    decide (briefM (st.getSuccs 0) = some [(2, 5000, 0), (3, 1200, 1)]) && decide (briefM (st.getPreds 2) = some [(0, 5000, 0), (4, 1500, 1)]) &&
    decide (okOf (st.getMapCost 1 0) = some 4) && decide (okOf (st.getMapCost 0 0) = some 3) && decide (okOf (st.isObstacle 1 1) = some true) &&
    decide (st.isValidConfig demo.foot (fun _ => 0) 1 0 0 = false)) demo_ok (by simp [demoOps, MCallOk, CallOk]) (by decide +kernel)
  refine ⟨st, h1, ?_⟩
  simpa [and_assoc] using h2

/-! ## C133: where it fails -/

/-- one heading, one primitive: one cell forward; a large square robot, whose circumscribed threshold is zero, on an empty map -/
def base133 : Setup :=
  { W := 7, H := 7, T := 1, cs := 1, obs := 10, inscr := 8, circ := 0, poly := true, foot := sqFoot,
    prims := [⟨0, 1, 0, 0, [(0, 0, 0), (1, 0, 0)], 1000, none⟩], map := fun _ => 0, start := (2, 3, 0), goal := (6, 6, 0) }

/-- a map with a single obstacle, at cell (4, 4) -/
def map133 : Int → Nat := fun i => if i = 32 then 10 else 0

theorem base133_ok : SetupOk base133 := ⟨by decide, by decide⟩

/-- **C133, violated** A large robot with a narrow part at another height, above (2, 3): the only obstacle, at cell (4, 4) of the additional level, is not below the narrow part,
and the map of the base level is empty.  On its own, each of the two levels allows to move one cell forward at cost 1000, and IsValidConfiguration of the environment with both
accepts source and end of the move; but GetSuccs of this environment does not report it, because the cells swept by the base footprint are compared with the obstacles of the additional
level. -/
theorem base_footprint_checked_everywhere :
    (∃ sb, Hist base133 [] sb ∧ brief (sb.getSuccs sb.startId) = some [(2, 1000, 0)]) ∧
    (∃ sl, Hist { ofLevel base133 ptLevel with map := map133 } [] sl ∧ brief (sl.getSuccs sl.startId) = some [(2, 1000, 0)]) ∧
    ∃ st, MHist base133 [.initLevels [ptLevel], .setMapLev map133 0] st ∧ okOf (st.env.getCoord st.env.startId) = some (2, 3, 0) ∧
      st.isValidConfig base133.foot (fun _ => 0) 2 3 0 = true ∧ st.isValidConfig base133.foot (fun _ => 0) 3 3 0 = true ∧
      briefM (st.getSuccs st.env.startId) = some [] := by
  refine ⟨?_, ?_, ?_⟩
  · exact tryX_ok (s := base133) (ops := []) (f := fun st => brief (st.getSuccs st.startId)) base133_ok (by simp) (by decide +kernel)
  · exact tryX_ok (s := { ofLevel base133 ptLevel with map := map133 }) (ops := []) (f := fun st => brief (st.getSuccs st.startId)) ⟨by decide, by decide⟩ (by simp) (by decide +kernel)
  · obtain ⟨st, h1, h2⟩ := tryM_ok (s := base133) (ops := [.initLevels [ptLevel], .setMapLev map133 0]) (f := fun st =>
      decide (okOf (st.env.getCoord st.env.startId) = some (2, 3, 0)) && decide (st.isValidConfig base133.foot (fun _ => 0) 2 3 0 = true) &&
      decide (st.isValidConfig base133.foot (fun _ => 0) 3 3 0 = true) && decide (briefM (st.getSuccs st.env.startId) = some [])) base133_ok (by simp [MCallOk]) (by decide +kernel)
    refine ⟨st, h1, ?_⟩
    simpa [and_assoc] using h2

/-! ## C134: two collision checks that disagree -/

/-- the footprint of a square robot of half side `h` at heading 0, on cells of side 1, as computed by get_2d_footprint_cells -/
def squareAt (h : ℚ) (p : ℚ × ℚ × ℚ) : List (Int × Int) :=
  ((Fp.footprint 100 0 [(-h, -h), (h, -h), (h, h), (-h, h)] p.1 p.2.1 1 0 1).map (fun r => r.cells)).getD []

/-- one heading, one primitive: one cell forward; a square robot whose footprint is checked in any case; one obstacle -/
def square (h : ℚ) (obst : Int) : Setup :=
  { W := 6, H := 4, T := 1, cs := 1, obs := 10, inscr := 8, circ := 0, poly := true, foot := squareAt h,
    prims := [⟨0, 1, 0, 0, [(0, 0, 0), (1, 0, 0)], 1000, none⟩], map := fun i => if i = obst then 10 else 0, start := (2, 1, 0), goal := (5, 3, 0) }

/-- **C134, violated** GetSuccs computes the cells swept with the robot at a corner of its cell, IsValidConfiguration computes the cells covered with the robot at the centre; so a
transition can be reported from a configuration that is accepted to one that is not (robot of 0.8 cells, obstacle at cell (4, 2)), and a transition can be missing between two
configurations that are both accepted and differ by one cell (robot of 1.2 cells, obstacle at cell (4, 0)). -/
theorem config_vs_transitions :
    (∃ st, Hist (square (2 / 5) 16) [] st ∧ (square (2 / 5) 16).start = (2, 1, 0) ∧ brief (st.getSuccs st.startId) = some [(2, 1000, 0)] ∧
      st.isValidConfig (square (2 / 5) 16).foot (fun _ => 0) 2 1 0 = true ∧ st.isValidConfig (square (2 / 5) 16).foot (fun _ => 0) 3 1 0 = false) ∧
    (∃ st, Hist (square (3 / 5) 4) [] st ∧ (square (3 / 5) 4).start = (2, 1, 0) ∧ brief (st.getSuccs st.startId) = some [] ∧
      st.isValidConfig (square (3 / 5) 4).foot (fun _ => 0) 2 1 0 = true ∧ st.isValidConfig (square (3 / 5) 4).foot (fun _ => 0) 3 1 0 = true) := by
  constructor
  · obtain ⟨st, st2, h1, h2, h3⟩ := try2_ok (s := square (2 / 5) 16) (ops := []) (ops' := []) (f := fun st _ =>
      decide (brief (st.getSuccs st.startId) = some [(2, 1000, 0)]) && decide (st.isValidConfig (square (2 / 5) 16).foot (fun _ => 0) 2 1 0 = true) &&
      decide (st.isValidConfig (square (2 / 5) 16).foot (fun _ => 0) 3 1 0 = false)) (by decide +kernel)
    simp only [Bool.and_eq_true, decide_eq_true_iff, and_assoc] at h3
    exact ⟨st, tryX_hist ⟨by decide, by simp [square]⟩ (by simp) h1, rfl, h3⟩
  · obtain ⟨st, st2, h1, h2, h3⟩ := try2_ok (s := square (3 / 5) 4) (ops := []) (ops' := []) (f := fun st _ =>
      decide (brief (st.getSuccs st.startId) = some []) && decide (st.isValidConfig (square (3 / 5) 4).foot (fun _ => 0) 2 1 0 = true) &&
      decide (st.isValidConfig (square (3 / 5) 4).foot (fun _ => 0) 3 1 0 = true)) (by decide +kernel)
    simp only [Bool.and_eq_true, decide_eq_true_iff, and_assoc] at h3
    exact ⟨st, tryX_hist ⟨by decide, by simp [square]⟩ (by simp) h1, rfl, h3⟩

/-! ## C132: planning -/

/-- the map of `hSetup` (an obstacle between start and goal at the base level), and an additional level with cost 1 at the cell (1, 1) on the way round it -/
def hOps : List MOp := [.initLevels [ptLevel], .updateLev 1 1 1 0]

/-- plan on it, with the heuristics of a new environment -/
def mEnv (st : MEnv) : PEnv :=
  mlevPEnv st.env.cfg st.levels (keyNum 3 2) (keyDen 3 2 4) (freshHeur hSetup 1 0 st.env.cfg.grid (0, 0, 0)) (freshHeur hSetup 1 0 st.env.cfg.grid (2, 0, 0))

def mRun (fwd : Bool) (ie : Nat) : Option ARA.Result :=
  match tryM hSetup hOps with
  | none => none
  | some st => ARAProps.planRun (mEnv st) fwd 1 ie 1 1 true [.setGoal 2, .setStart 0] [99, 99]

theorem mRun_some {fwd : Bool} {ie : Nat} {v : Bool × List Nat × Nat × Option Nat} (h : (mRun fwd ie).map (fun r => (r.found, r.path, r.cost, r.finalEps)) = some v) :
    ∃ stx st st' r, MHist hSetup hOps stx ∧ (ARA.init (mEnv stx) fwd 1 ie 1 1 true).run [.setGoal 2, .setStart 0] = some st ∧
      st.replan [99, 99] = .ok (st', r) ∧ (r.found, r.path, r.cost, r.finalEps) = v := by
  unfold mRun at h
  split at h
  next => cases h
  next stx h0 =>
    cases hr : ARAProps.planRun (mEnv stx) fwd 1 ie 1 1 true [.setGoal 2, .setStart 0] [99, 99] with
    | none => rw [hr] at h; cases h
    | some r =>
      rw [hr] at h
      obtain ⟨st, st', h1, h2⟩ := ARAProps.planRun_some hr
      refine ⟨stx, st, st', r, ?_, h1, h2, by simpa using h⟩
      unfold tryM at h0
      split at h0
      next st0 h00 => exact ⟨hSetup_ok.ok, by simp [hOps, MCallOk], st0, h00, h0⟩
      next => cases h0

/-- all the hypotheses on the environment and the heuristics are met -/
theorem mEnv_ok {stx : MEnv} (hx : MHist hSetup hOps stx) : XNumbering hSetup (keyNum 3 2) (keyDen 3 2 4) ∧ EnvOk (mEnv stx) ∧ CostAtLeast hSetup 3 ∧
    (∀ g, InRange hSetup g → HeurFrom hSetup 1 (costs hSetup (baseCalls hOps)) g (freshHeur hSetup 1 0 stx.env.cfg.grid (0, 0, 0) g)) ∧
    (∀ g, InRange hSetup g → HeurFrom hSetup 1 (costs hSetup (baseCalls hOps)) g (freshHeur hSetup 1 0 stx.env.cfg.grid (2, 0, 0) g)) := by
  obtain ⟨ix, eg, -⟩ := mhist_inv hx
  have N : XNumbering hSetup (keyNum 3 2) (keyDen 3 2 4) := key_numbering (s := hSetup) (by decide) (by decide)
  have hc : CostAtLeast hSetup 3 := by
    intro m hm
    simp only [hSetup, hPrims, List.mem_cons, List.not_mem_nil, or_false] at hm
    rcases hm with rfl | rfl | rfl | rfl | rfl | rfl | rfl | rfl <;> decide
  refine ⟨N, mlev_envOk ix.env.stc hSetup_ok.ok ix.lst N (fun m hm => Nat.le_trans (by decide) (hc m hm)), hc, ?_, ?_⟩
  · intro g hg
    rw [eg]
    exact fresh_table hSetup_ok.cell hSetup_ok.thr 0 _ (by decide) (by unfold InRange InMap; decide) hg
  · intro g hg
    rw [eg]
    exact fresh_table hSetup_ok.cell hSetup_ok.thr 0 _ (by decide) (by unfold InRange InMap; decide) hg


/-- forward, with eps = 3: around the obstacle, four turns, four moves (two of them at double cost), four turns -/
example : ∃ stx st st' res, MHist hSetup hOps stx ∧ EnvOk (mEnv stx) ∧ (ARA.init (mEnv stx) true 1 3 1 1 true).run [.setGoal 2, .setStart 0] = some st ∧
    st.replan [99, 99] = .ok (st', res) ∧ res.found = true ∧ res.path = [0, 6, 9, 15, 21, 3, 4, 5, 11, 17, 23, 20, 2] ∧ res.cost = 84 ∧ res.finalEps = some 3 := by
  obtain ⟨stx, st, st', r, h0, h1, h2, h3⟩ := mRun_some (fwd := true) (ie := 3) (by decide +kernel :
    _ = some (true, [0, 6, 9, 15, 21, 3, 4, 5, 11, 17, 23, 20, 2], 84, some 3))
  simp only [Prod.mk.injEq] at h3
  exact ⟨stx, st, st', r, h0, (mEnv_ok h0).2.1, h1, h2, h3.1, h3.2.1, h3.2.2.1, h3.2.2.2⟩

/-- backward, with eps = 1: optimal -/
example {n : Nat} (w : MWalk hSetup (costs hSetup (baseCalls hOps)) (levelsOf hSetup hOps) (0, 0, 0) (2, 0, 0) n) : 84 ≤ n := by
  obtain ⟨stx, st, st', r, h0, h1, h2, h3⟩ := mRun_some (fwd := false) (ie := 1) (by decide +kernel :
    _ = some (true, [0, 6, 9, 15, 21, 3, 4, 5, 11, 17, 23, 20, 2], 84, some 1))
  simp only [Prod.mk.injEq] at h3
  obtain ⟨N, hE, hc, hG, hS⟩ := mEnv_ok h0
  have := (ara_mlev_bound (vel := 1) hE (by simp [OpOk]) h1 rfl rfl (by simp) h2 h3.2.2.2 (by decide) (by decide) h0 N rfl (p := (0, 0, 0)) (q := (2, 0, 0)) (by decide) (by decide)
    (by norm_num) hSetup_fast hSetup_follow hc (k := 0) (.inl ⟨1, by norm_num⟩) hG hS w).2.2 ⟨1, by norm_num⟩ rfl
  rw [h3.2.2.1] at this
  exact this

end Sbpl.MLevProps
