import Verif.Model.XYTFile
import Verif.Model.XYTInit
import Verif.Model.MLev
/-!
# `EnvironmentNAVXYTHETALATTICE` with a list of headings (`bUseNonUniformAngles`)

A file of motion primitives whose second entry is `min_turning_radius_m:` lists the angles of the headings.  Modelled: ReadMotionPrimitives and the functions it calls, InitializeEnv from
two files, SetStart and SetGoal, PoseContToDisc and PoseDiscToCont, and IsValidConfiguration of `EnvironmentNAVXYTHETAMLEVLAT`.
Simplifications: `2.0 * M_PI`, appended to the list, is 2 * PI_CONST; `float` and `double` are exact.  The object is new (`bUseNonUniformAngles` is never reset).
-/

namespace Sbpl

namespace XPrim
open Utils

/-- the check at the end of ReadinMotionPrimitive (environment_navxythetalat.cpp:713-745): the angle of the heading at the beginning is computed (and not used), which may throw -/
def checkEndSet (cs : ℚ) (T : Nat) (dirs : List ℚ) (r : RawPrim) : Except XErr Bool :=
  match discTheta2ContSet T dirs r.startTheta with
  | .error e => .error e
  | .ok _ =>
    match r.pts.getLast? with
    | none => .error .oob
    | some p =>
      match contTheta2DiscSet T dirs p.2.2 with
      | .error e => .error e
      | .ok i => .ok (decide (contXY2Disc (discXY2Cont 0 cs + p.1) cs = r.dX ∧ contXY2Disc (discXY2Cont 0 cs + p.2.1) cs = r.dY ∧ (i : Int) = r.endTheta))

/-- DiscTheta2ContFromSet where it does not throw (environment_navxythetalat.cpp:545-560); see `XAngProps.angle_defined` -/
def angleOf (T : Nat) (dirs : List ℚ) (t : Int) : ℚ :=
  match discTheta2ContSet T dirs t with
  | .error _ => 0
  | .ok a => a

/-- `angular_distance` (environment_navxythetalat.cpp:1222-1225); starttheta and endtheta are `char`s -/
def angularDistSet (T : Nat) (dirs : List ℚ) (r : RawPrim) : ℚ :=
  |minUnsignedAngleDiff (angleOf T dirs (toChar r.endTheta)) (angleOf T dirs (toChar r.startTheta))|

/-- cost of a primitive (environment_navxythetalat.cpp:1221, 1227-1231), before the multiplier -/
noncomputable def baseCostSet (T : Nat) (dirs : List ℚ) (vel tt : ℚ) (r : RawPrim) : Int :=
  ⌈1000 * max (linearDist r.pts / (vel : ℝ)) ((angularDistSet T dirs r / ((PI_CONST / 4) / tt) : ℚ) : ℝ)⌉

/-- the primitive with its cost (environment_navxythetalat.cpp:1229-1233) -/
noncomputable def mkPrimSet (T : Nat) (dirs : List ℚ) (vel tt : ℚ) (r : RawPrim) : MPrim :=
  { startTheta := r.startTheta, dX := r.dX, dY := r.dY, endTheta := r.endTheta, pts := r.pts, cost := (baseCostSet T dirs vel tt r * r.mult).toNat }

end XPrim

namespace Scan

/-- ReadinCell (environment_navxythetalat.cpp:459-483) with a list of headings -/
def readCellSet (T : Nat) : Rd (Int × Int × Int) := do
  let b ← wordKeep 60 none
  let x ← atoi (← contents b)
  let b ← wordKeep 60 b
  let y ← atoi (← contents b)
  let b ← wordKeep 60 b
  let th ← atoi (← contents b)
  pure (x, y, XPrim.normSet T th)

/-- ReadinMotionPrimitive (environment_navxythetalat.cpp:605-748) with a list of headings.  A negative multiplier is not modelled.  The turning radius is read and not used. -/
def readPrimSet (cs : ℚ) (T : Nat) (dirs : List ℚ) : Rd (Option (Int × RawPrim)) := do
  let b ← wordKeep 1024 none
  if !(← isLabel b "primID:") then return none
  let .one id ← scanD | return none
  let b ← wordKeep 1024 b
  if !(← isLabel b "startangle_c:") then return none
  let some st ← scanKeep none | return none
  let b ← wordKeep 1024 b
  if !(← isLabel b "endpose_c:") then return none
  let e ← readCellSet T
  let b ← wordKeep 1024 b
  if !(← isLabel b "additionalactioncostmult:") then return none
  let .one m ← scanD | return none
  let b ← wordKeep 1024 b
  if !(← isLabel b "turning_radius:") then return none
  let .one _ ← scanF | return none
  let b ← wordKeep 1024 b
  if !(← isLabel b "intermediateposes:") then return none
  let .one n ← scanD | return none
  let pts ← readPoses n.toNat
  if m < 0 then fail .other
  let r : RawPrim := ⟨st, e.1, e.2.1, e.2.2, m.toNat, pts⟩
  match XPrim.checkEndSet cs T dirs r with
  | .error _ => fail .ub
  | .ok ok => if ok then pure (some (id, r)) else pure none

/-- the loop over the primitives (environment_navxythetalat.cpp:866-874) -/
def readPrimSetList (cs : ℚ) (T : Nat) (dirs : List ℚ) : Nat → Rd (Option (List (Int × RawPrim)))
  | 0 => pure (some [])
  | n + 1 => do
    let some p ← readPrimSet cs T dirs | return none
    let some l ← readPrimSetList cs T dirs n | return none
    pure (some (p :: l))

/-- the label of an angle (environment_navxythetalat.cpp:824-826) -/
def angleLabel (i : Nat) : String := "angle:" ++ toString i

/-- the loop over the angles (environment_navxythetalat.cpp:822-843): `n` angles from index `i` on; an angle missing at the end of the file is an uninitialised variable -/
def readAngles : Nat → Nat → Option (List Char) → Rd (Option (List ℚ))
  | _, 0, _ => pure (some [])
  | i, n + 1, b => do
    let b ← wordKeep 1024 b
    if !(← isLabel b (angleLabel i)) then return none
    match ← scanF with
    | .eof => fail .ub
    | .nomatch => return none
    | .one a =>
      let some l ← readAngles (i + 1) n b | return none
      pure (some (a :: l))

/-- ReadMotionPrimitives (environment_navxythetalat.cpp:750-878) of a file with a list of headings, for an environment with cell size `cs` and `T` headings: the angles, with 2π appended, and
the primitives; files without a list are in `readPrims` -/
def readPrimsSet (cs : ℚ) (T : Nat) : Rd (Option (List ℚ × List (Int × RawPrim))) := do
  let b ← wordKeep 1024 none
  if !(← isLabel b "resolution_m:") then return none
  match ← scanF with
  | .eof => fail .ub
  | .nomatch => return none
  | .one f =>
    if |f - cs| > 1 / 10000000 then return none
    let b ← wordKeep 1024 b
    let w ← contents b
    if w.take 21 ≠ "min_turning_radius_m:".toList then fail .other
    if !(← isLabel b "min_turning_radius_m:") then return none
    match ← scanF with
    | .nomatch => return none
    | _ =>
      let b ← wordKeep 1024 b
      if !(← isLabel b "numberofangles:") then return none
      let some d ← scanKeep none | return none
      if d ≠ T then return none
      let some as ← readAngles 0 T b | return none
      let dirs := as ++ [2 * Utils.PI_CONST]
      let b ← wordKeep 1024 b
      if !(← isLabel b "totalnumberofprimitives:") then return none
      let some n ← scanKeep (some 0) | return none
      let some l ← readPrimSetList cs T dirs n.toNat | return none
      pure (some (dirs, l))

end Scan

namespace XInit

/-- the configuration after both files were read (environment_navxythetalat.cpp:1854-1878), with a list of headings -/
noncomputable def setupSet (foot : ℚ → ℚ × ℚ × ℚ → List (Int × Int)) (poly : Bool) (f : XFile) (dirs : List ℚ) (raws : List RawPrim) (i j : Nat) : XEnv.Setup where
  W := f.W
  H := f.H
  T := f.T.toNat
  cs := f.cs
  obs := f.obs
  inscr := f.inscr
  circ := f.circ.toNat
  poly := poly
  foot := foot f.cs
  prims := raws.map (XPrim.mkPrimSet f.T.toNat dirs f.vel f.tt)
  map := fun i => f.grid (i % f.W) (i / f.W)
  start := (f.start.1, f.start.2, (i : Int))
  goal := (f.goal.1, f.goal.2, (j : Int))

/-- InitializeEnv(sEnvFile, perimeterptsV, sMotPrimFile) (environment_navxythetalat.cpp:1837-1891) with a file that lists the headings: the environment and the list -/
noncomputable def initSet (foot : ℚ → ℚ × ℚ × ℚ → List (Int × Int)) (poly : Bool) (map prims : Scan.Text) : Except XInitErr (XEnv × List ℚ) :=
  match Scan.readXYT map with
  | .error e => .error (.file e)
  | .ok (f, _) =>
    if f.T ≤ 0 then .error .heading
    else
      match Scan.readPrimsSet f.cs f.T.toNat prims with
      | .error e => .error (.file e)
      | .ok (none, _) => .error .prims
      | .ok (some (dirs, l), _) =>
        match XPrim.contTheta2DiscSet f.T.toNat dirs f.startTheta, XPrim.contTheta2DiscSet f.T.toNat dirs f.goalTheta with
        | .error e, _ => .error (.env e)
        | .ok _, .error e => .error (.env e)
        | .ok i, .ok j =>
          if ¬ (i < f.T.toNat) then .error .heading
          else if ¬ (j < f.T.toNat) then .error .heading
          else
            match XEnv.init (setupSet foot poly f dirs (l.map Prod.snd) i j) with
            | .error e => .error (.env e)
            | .ok st => .ok (st, dirs)

/-- PoseContToDisc (environment_navxythetalat.cpp:2231-2240) with a list of headings -/
def poseToDiscSet (dirs : List ℚ) (c : XCfg) (x y th : ℚ) : Except XErr ((Int × Int × Int) × Bool) :=
  match XPrim.contTheta2DiscSet c.T dirs th with
  | .error e => .error e
  | .ok i =>
    let ix := Utils.contXY2Disc x c.cs
    let iy := Utils.contXY2Disc y c.cs
    .ok ((ix, iy, (i : Int)), decide (th ≥ -2 * Utils.PI_CONST ∧ th ≤ 2 * Utils.PI_CONST ∧ ix ≥ 0 ∧ ix < c.W ∧ iy ≥ 0 ∧ iy < c.H))

/-- PoseDiscToCont (environment_navxythetalat.cpp:2242-2251) with a list of headings -/
def poseToContSet (dirs : List ℚ) (c : XCfg) (ix iy ith : Int) : Except XErr ((ℚ × ℚ × ℚ) × Bool) :=
  match XPrim.discTheta2ContSet c.T dirs ith with
  | .error e => .error e
  | .ok a => .ok ((Utils.discXY2Cont ix c.cs, Utils.discXY2Cont iy c.cs, Utils.normalizeAngle a), decide (ith ≥ 0 ∧ ith < c.T ∧ ix ≥ 0 ∧ ix < c.W ∧ iy ≥ 0 ∧ iy < c.H))

end XInit

namespace XEnv

/-- SetGoal (environment_navxythetalat.cpp:2503-2543) with a list of headings; `none` is the return value -1 -/
def setGoalSet (dirs : List ℚ) (st : XEnv) (x y th : ℚ) : Except XErr (XEnv × Option Nat) :=
  match XPrim.contTheta2DiscSet st.cfg.T dirs th with
  | .error e => .error e
  | .ok i =>
    let k : XKey := (Utils.contXY2Disc x st.cfg.cs, Utils.contXY2Disc y st.cfg.cs, (i : Int))
    if st.cfg.within k.1 k.2.1 = false then .ok (st, none)
    else
      match st.getState k with
      | .error e => .error e
      | .ok (st1, id) =>
        .ok ({ st1 with needStart := st1.needStart || decide (st1.goalId ≠ id), needGoal := st1.needGoal || decide (st1.goalId ≠ id),
                        goalId := id, cfg := { st1.cfg with goal := k } }, some id)

/-- SetStart (environment_navxythetalat.cpp:2545-2585) with a list of headings -/
def setStartSet (dirs : List ℚ) (st : XEnv) (x y th : ℚ) : Except XErr (XEnv × Option Nat) :=
  match XPrim.contTheta2DiscSet st.cfg.T dirs th with
  | .error e => .error e
  | .ok i =>
    let k : XKey := (Utils.contXY2Disc x st.cfg.cs, Utils.contXY2Disc y st.cfg.cs, (i : Int))
    if st.cfg.within k.1 k.2.1 = false then .ok (st, none)
    else
      match st.getState k with
      | .error e => .error e
      | .ok (st1, id) =>
        .ok ({ st1 with needStart := st1.needStart || decide (st1.startId ≠ id), needGoal := st1.needGoal || decide (st1.startId ≠ id),
                        startId := id, cfg := { st1.cfg with start := k } }, some id)

/-- effect of a call on an environment with a list of headings; only SetStart and SetGoal convert an angle, the other calls are as in `step`: an action never ends outside
the headings, so the two versions of normalizeDiscAngle (environment_navxythetalat.cpp:509-523) agree, see `XAngProps.norm_agree` -/
def stepSet (dirs : List ℚ) (st : XEnv) : Op → Option XEnv
  | .setStart x y th => match st.setStartSet dirs x y th with | .ok r => some r.1 | .error _ => none
  | .setGoal x y th => match st.setGoalSet dirs x y th with | .ok r => some r.1 | .error _ => none
  | op => st.step op

/-- a history of calls -/
def runSet (dirs : List ℚ) (st : XEnv) : List Op → Option XEnv
  | [] => some st
  | op :: ops => match st.stepSet dirs op with
    | none => none
    | some st1 => runSet dirs st1 ops

end XEnv

namespace MEnv

/-- IsValidConfiguration of `EnvironmentNAVXYTHETAMLEVLAT` (environment_navxythetamlevlat.cpp:184-219) with a list of headings: the base class takes the angle from the list
(DiscTheta2ContNew, environment_navxythetalat.cpp:1515), the additional levels take DiscTheta2Cont (environment_navxythetamlevlat.cpp:197) -/
def isValidConfigSet (dirs : List ℚ) (st : MEnv) (foot : ℚ × ℚ × ℚ → List (Int × Int)) (x y t : Int) : Bool :=
  let pose := (Utils.discXY2Cont x st.env.cfg.cs, Utils.discXY2Cont y st.env.cfg.cs, Utils.discTheta2Cont t st.env.cfg.T)
  if st.env.isValidConfig foot (XPrim.angleOf st.env.cfg.T dirs) x y t = false then false
  else st.levels.all (fun l => footFree st.env.cfg l.grid (l.inp.foot pose))

end MEnv
end Sbpl
