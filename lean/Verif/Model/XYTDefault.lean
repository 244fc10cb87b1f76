import Verif.Model.XYTFile
import Mathlib.Analysis.SpecialFunctions.Trigonometric.Basic
/-!
# The actions of `EnvironmentNAVXYTHETALATTICE` without motion primitives (src/discrete_space_information/environment_navxythetalat.cpp)

DeprecatedPrecomputeActions, which InitializeEnvConfig calls if there are no motion primitives (1486-1488), and the variants of InitializeEnv that get there.  Uniform headings.
`sin`, `cos` and `sqrt` are the real functions; the cost of an action is not negative.  Every object has `actionwidth` = 5 actions per heading
(NAVXYTHETALAT_DEFAULT_ACTIONWIDTH, set by the constructor, 68): the object has not been initialised with primitives before.
-/

namespace Sbpl.XDfl
open XEnv

/-- C's conversion of a real number to `int` -/
noncomputable def truncR (x : ℝ) : Int := if 0 ≤ x then ⌊x⌋ else ⌈x⌉

/-- one coordinate of the move: `(int)(v + 0.5 * (v > 0 ? 1 : -1))` (environment_navxythetalat.cpp:1316-1317) -/
noncomputable def roundDir (v : ℝ) : Int := truncR (v + (1 / 2) * (if v > 0 then 1 else -1))

/-- `endtheta` (environment_navxythetalat.cpp:1314, 1358-1361, 1400) -/
def endTheta (T : Nat) (tind : Int) (aind : Nat) : Int :=
  if aind < 3 then (tind + aind - 1).tmod T
  else if aind = 3 then (if tind - 1 < 0 then tind - 1 + T else tind - 1)
  else (tind + 1).tmod T

/-- `DiscTheta2ContNew(endtheta)` (environment_navxythetalat.cpp:1315, 1370, 1410) -/
def endAngle (T : Nat) (tind : Int) (aind : Nat) : ℚ := Utils.discTheta2Cont (toChar (endTheta T tind aind)) T

/-- dX (environment_navxythetalat.cpp:1316, 1362, 1401) -/
noncomputable def dX (T : Nat) (tind : Int) (aind : Nat) : Int := if aind < 3 then roundDir (Real.cos (endAngle T tind aind : ℝ)) else 0
/-- dY (environment_navxythetalat.cpp:1317, 1363, 1402) -/
noncomputable def dY (T : Nat) (tind : Int) (aind : Nat) : Int := if aind < 3 then roundDir (Real.sin (endAngle T tind aind : ℝ)) else 0

/-- cost (environment_navxythetalat.cpp:1318-1322, 1364-1365, 1403-1404) -/
noncomputable def cost (T : Nat) (cs vel tt : ℚ) (tind : Int) (aind : Nat) : Nat :=
  if aind < 3 then
    ⌈((1000 * cs / vel : ℚ) : ℝ) * Real.sqrt ((dX T tind aind * dX T tind aind + dY T tind aind * dY T tind aind : Int) : ℝ)⌉.toNat
  else (Utils.trunc (1000 * tt)).toNat

/-- sourcepose (environment_navxythetalat.cpp:1302-1306) -/
def srcPose (T : Nat) (cs : ℚ) (tind : Int) : ℚ × ℚ × ℚ := (Utils.discXY2Cont 0 cs, Utils.discXY2Cont 0 cs, Utils.discTheta2Cont tind T)

/-- pose at the end (environment_navxythetalat.cpp:1325-1328, 1368-1371, 1407-1410) -/
noncomputable def endPose (T : Nat) (cs : ℚ) (tind : Int) (aind : Nat) : ℚ × ℚ × ℚ :=
  (Utils.discXY2Cont (dX T tind aind) cs, Utils.discXY2Cont (dY T tind aind) cs, endAngle T tind aind)

/-- one action (environment_navxythetalat.cpp:1308-1337, 1354-1379, 1396-1419): no intermediate poses and cells; the cells covered at the end but not at the source -/
noncomputable def act (T : Nat) (cs vel tt : ℚ) (foot : ℚ × ℚ × ℚ → List (Int × Int)) (tind : Int) (aind : Nat) : XAct where
  aind := aind
  startTheta := toChar tind
  endTheta := toChar (endTheta T tind aind)
  dX := toChar (dX T tind aind)
  dY := toChar (dY T tind aind)
  cost := cost T cs vel tt tind aind
  interm := []
  inter := (foot (endPose T cs tind aind)).filter (fun q => decide (q ∉ foot (srcPose T cs tind)))

/-- ActionsV[tind] (environment_navxythetalat.cpp:1296-1420) -/
noncomputable def acts (T : Nat) (cs vel tt : ℚ) (foot : ℚ × ℚ × ℚ → List (Int × Int)) (t : Int) : List XAct :=
  if 0 ≤ t ∧ t < T then (List.range 5).map (act T cs vel tt foot t) else []

/-- DeprecatedPrecomputeActions (environment_navxythetalat.cpp:1288-1435): ActionsV and PredActionsV; a final heading that is no index into PredActionsV is a write outside the array -/
noncomputable def precompute (T : Nat) (cs vel tt : ℚ) (foot : ℚ × ℚ × ℚ → List (Int × Int)) : Except XErr ((Int → List XAct) × (Int → List XAct)) :=
  if (allActs T (acts T cs vel tt foot)).any (fun a => decide (predIdx T a < 0 ∨ predIdx T a ≥ T)) then .error .oob
  else .ok (acts T cs vel tt foot, fun t => (allActs T (acts T cs vel tt foot)).filter (fun a => decide (predIdx T a = t)))

/-- SetConfiguration, InitializeEnvConfig without primitives and InitializeEnvironment (environment_navxythetalat.cpp:128-215, 1437-1493, 3007-3077); `s.prims` is not used -/
noncomputable def init (s : Setup) (vel tt : ℚ) : Except XErr XEnv :=
  if ¬(0 ≤ s.start.1 ∧ s.start.1 < s.W ∧ 0 ≤ s.start.2.1 ∧ s.start.2.1 < s.H ∧ 0 ≤ s.start.2.2 ∧ s.start.2.2 < s.T) then .error .badInput
  else if ¬(0 ≤ s.goal.1 ∧ s.goal.1 < s.W ∧ 0 ≤ s.goal.2.1 ∧ s.goal.2.1 < s.H ∧ 0 ≤ s.goal.2.2 ∧ s.goal.2.2 < s.T) then .error .badInput
  else
    match precompute s.T s.cs vel tt s.foot with
    | .error e => .error e
    | .ok (acts, preds) =>
      match (fresh s acts preds).getState s.start with
      | .error e => .error e
      | .ok (st1, i) =>
        match st1.getState s.goal with
        | .error e => .error e
        | .ok (st2, j) => .ok { st2 with startId := i, goalId := j }

/-- the same actions as motion primitives without poses, whose swept cells are computed from the source and the end only (used to state that `init` is an instance of the
environment with primitives, see Props/XYTDefault) -/
noncomputable def prim (T : Nat) (cs vel tt : ℚ) (tind : Int) (aind : Nat) : MPrim where
  startTheta := tind
  dX := dX T tind aind
  dY := dY T tind aind
  endTheta := endTheta T tind aind
  pts := []
  cost := cost T cs vel tt tind aind
  swept := some [srcPose T cs tind, endPose T cs tind aind]

/-- all of them, heading by heading -/
noncomputable def prims (T : Nat) (cs vel tt : ℚ) : List MPrim := (List.range T).flatMap (fun (t : Nat) => (List.range 5).map (prim T cs vel tt (t : Int)))

/-- a configuration with these primitives -/
noncomputable def setup (s : Setup) (vel tt : ℚ) : Setup := { s with prims := prims s.T s.cs vel tt }

/-- InitializeEnv(sEnvFile, perimeterptsV, NULL) (environment_navxythetalat.cpp:1837-1891) and InitializeEnv(sEnvFile) (1893-1906): the headings of the start and the goal are not
computed from the file; `startTheta` and `endTheta` are the values that the members StartTheta and EndTheta have before the call (a new object does not initialise them) -/
noncomputable def initFile (foot : ℚ → ℚ × ℚ × ℚ → List (Int × Int)) (poly : Bool) (startTheta endTheta : Int) (map : Scan.Text) : Except XInitErr XEnv :=
  match Scan.readXYT map with
  | .error e => .error (.file e)
  | .ok (f, _) =>
    match init { XInit.setupOf foot poly f [] with start := (f.start.1, f.start.2, startTheta), goal := (f.goal.1, f.goal.2, endTheta) } f.vel f.tt with
    | .error e => .error (.env e)
    | .ok st => .ok st

end Sbpl.XDfl
