import Verif.Model.XYTDefault
/-!
# Parameters, InitializeEnv with arguments, GetEnvParms and pose conversion of `EnvironmentNAVXYTHETALATTICE` and `EnvironmentNAV2D`

Uniform headings.
-/

namespace Sbpl

/-- the members that SetEnvParameter sets (environment_navxythetalat.h:149-154); `cost_possibly_circumscribed_thresh` is an `int`, the others are `unsigned char` -/
structure XParams where
  obs : Nat
  inscr : Nat
  circ : Int
  inited : Bool
deriving DecidableEq, Repr

/-- the arguments of InitializeEnv (environment_navxythetalat.cpp:1908-1932), with the `EnvNAVXYTHETALAT_InitParms`; a null map is a map of zeros (SetConfiguration, 199-206) -/
structure XArgs where
  W : Int
  H : Int
  T : Nat
  map : Int → Nat
  startX : ℚ
  startY : ℚ
  startTheta : ℚ
  goalX : ℚ
  goalY : ℚ
  goalTheta : ℚ
  cs : ℚ
  vel : ℚ
  tt : ℚ
  obs : Nat

namespace XInit

/-- the constructor (environment_navxythetalat.cpp:51-57, 68) -/
def params0 : XParams := ⟨254, 254, -1, false⟩

/-- SetEnvParameter (environment_navxythetalat.cpp:2258-2296) -/
def setParam (p : XParams) (name : String) (v : Int) : XParams × Bool :=
  if p.inited then (p, false)
  else if name = "cost_inscribed_thresh" then (if v < 0 ∨ v > 255 then (p, false) else ({ p with inscr := v.toNat }, true))
  else if name = "cost_possibly_circumscribed_thresh" then (if v < 0 ∨ v > 255 then (p, false) else ({ p with circ := v }, true))
  else if name = "cost_obsthresh" then (if v < 0 ∨ v > 255 then (p, false) else ({ p with obs := v.toNat }, true))
  else (p, false)

/-- GetEnvParameter (environment_navxythetalat.cpp:2298-2313); `none` is the exception -/
def getParam (p : XParams) (name : String) : Option Int :=
  if name = "cost_inscribed_thresh" then some p.inscr
  else if name = "cost_possibly_circumscribed_thresh" then some p.circ
  else if name = "cost_obsthresh" then some p.obs
  else none

/-- a sequence of SetEnvParameter calls -/
def setAll (p : XParams) (l : List (String × Int)) : XParams := l.foldl (fun p nv => (setParam p nv.1 nv.2).1) p

/-- the configuration made from the arguments (environment_navxythetalat.cpp:1961-2001): the thresholds other than the one for obstacles are those set before -/
noncomputable def setupArgs (foot : ℚ → ℚ × ℚ × ℚ → List (Int × Int)) (poly : Bool) (p : XParams) (a : XArgs) (raws : List RawPrim) : XEnv.Setup where
  W := a.W
  H := a.H
  T := a.T
  cs := a.cs
  obs := a.obs
  inscr := p.inscr
  circ := p.circ.toNat
  poly := poly
  foot := foot a.cs
  prims := raws.map (XPrim.mkPrim a.T a.vel a.tt)
  map := a.map
  start := (Utils.contXY2Disc a.startX a.cs, Utils.contXY2Disc a.startY a.cs, Utils.contTheta2Disc a.startTheta a.T)
  goal := (Utils.contXY2Disc a.goalX a.cs, Utils.contXY2Disc a.goalY a.cs, Utils.contTheta2Disc a.goalTheta a.T)

/-- InitializeEnv with arguments after the file of primitives was read (environment_navxythetalat.cpp:1982-2010): the headings of start and goal, SetConfiguration, and InitGeneral,
without primitives if `mprimV` is empty; `bInitialized` is set at the end (3075). -/
noncomputable def initCore (foot : ℚ → ℚ × ℚ × ℚ → List (Int × Int)) (poly : Bool) (p : XParams) (a : XArgs) (raws : List RawPrim) : Except XInitErr (XParams × XEnv) :=
  if ¬ (0 ≤ Utils.contTheta2Disc a.startTheta a.T ∧ Utils.contTheta2Disc a.startTheta a.T < a.T) then .error .heading
  else if ¬ (0 ≤ Utils.contTheta2Disc a.goalTheta a.T ∧ Utils.contTheta2Disc a.goalTheta a.T < a.T) then .error .heading
  else
    match (if raws.isEmpty then XDfl.init (setupArgs foot poly p a raws) a.vel a.tt else XEnv.init (setupArgs foot poly p a raws)) with
    | .error e => .error (.env e)
    | .ok st => .ok ({ p with obs := a.obs, inited := true }, st)

/-- InitializeEnv with arguments (environment_navxythetalat.cpp:1908-2011) on an object that is not yet initialised, with a file of motion primitives -/
noncomputable def initArgs (foot : ℚ → ℚ × ℚ × ℚ → List (Int × Int)) (poly : Bool) (p : XParams) (a : XArgs) (prims : Scan.Text) : Except XInitErr (XParams × XEnv) :=
  match Scan.readPrims a.cs a.T prims with
  | .error e => .error (.file e)
  | .ok (none, _) => .error .prims
  | .ok (some l, _) => initCore foot poly p a (l.map Prod.snd)

/-- the same with `sMotPrimFile` NULL (environment_navxythetalat.cpp:1968, 2003-2008) -/
noncomputable def initArgsNone (foot : ℚ → ℚ × ℚ × ℚ → List (Int × Int)) (poly : Bool) (p : XParams) (a : XArgs) : Except XInitErr (XParams × XEnv) :=
  initCore foot poly p a []

/-- GetEnvParms (environment_navxythetalat.cpp:2182-2229) together with GetMapCost (2253-2256) for every cell, as the arguments of another InitializeEnv.  `vel` and `tt` are the members
nominalvel_mpersecs and timetoturn45degsinplace_secs, which no call changes after InitializeEnv. -/
def getParms (st : XEnv) (vel tt : ℚ) : XArgs where
  W := st.cfg.W
  H := st.cfg.H
  T := st.cfg.T
  map := fun i => st.cfg.grid (i % st.cfg.W) (i / st.cfg.W)
  startX := Utils.discXY2Cont st.cfg.start.1 st.cfg.cs
  startY := Utils.discXY2Cont st.cfg.start.2.1 st.cfg.cs
  startTheta := Utils.discTheta2Cont st.cfg.start.2.2 st.cfg.T
  goalX := Utils.discXY2Cont st.cfg.goal.1 st.cfg.cs
  goalY := Utils.discXY2Cont st.cfg.goal.2.1 st.cfg.cs
  goalTheta := Utils.discTheta2Cont st.cfg.goal.2.2 st.cfg.T
  cs := st.cfg.cs
  vel := vel
  tt := tt
  obs := st.cfg.obs

/-- PoseContToDisc (environment_navxythetalat.cpp:2231-2240): the cell and heading, and the return value -/
def poseToDisc (c : XCfg) (x y th : ℚ) : (Int × Int × Int) × Bool :=
  let ix := Utils.contXY2Disc x c.cs
  let iy := Utils.contXY2Disc y c.cs
  ((ix, iy, Utils.contTheta2Disc th c.T),
    decide (th ≥ -2 * Utils.PI_CONST ∧ th ≤ 2 * Utils.PI_CONST ∧ ix ≥ 0 ∧ ix < c.W ∧ iy ≥ 0 ∧ iy < c.H))

/-- PoseDiscToCont (environment_navxythetalat.cpp:2242-2251) -/
def poseToCont (c : XCfg) (ix iy ith : Int) : (ℚ × ℚ × ℚ) × Bool :=
  ((Utils.discXY2Cont ix c.cs, Utils.discXY2Cont iy c.cs, Utils.normalizeAngle (Utils.discTheta2Cont ith c.T)),
    decide (ith ≥ 0 ∧ ith < c.T ∧ ix ≥ 0 ∧ ix < c.W ∧ iy ≥ 0 ∧ iy < c.H))

end XInit

namespace Nav2DInit

/-- SetEnvParameter of EnvironmentNAV2D (environment_nav2D.cpp:1202-1225) on the members (numofdirs, bInitialized) -/
def setParam (p : Nat × Bool) (name : String) (v : Int) : (Nat × Bool) × Bool :=
  if p.2 then (p, false)
  else if name = "is16connected" then ((if v ≠ 0 then (16, p.2) else (8, p.2)), true)
  else (p, false)

end Nav2DInit
end Sbpl
