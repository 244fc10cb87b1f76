import Verif.Model.XYT
/-!
# `EnvironmentNAVXYTHETAMLEVLAT` (src/discrete_space_information/environment_navxythetamlevlat.cpp)

(x, y, theta) lattice planning with additional levels in z: every additional level has its own footprint, map and thresholds.  The class derives from
`EnvironmentNAVXYTHETALAT` and overrides the virtual functions IsValidCell and GetActionCost, which GetSuccs, GetPreds, GetLazySuccs, GetLazyPreds, GetTrueCost
and GetActionsFromStateIDPath of the base class then use.  In particular the base class version of GetActionCost calls the overridden IsValidCell.
Modelled: all functions of the file except destructor and printing.
Simplifications: as in Model/XYT.lean.  InitializeAdditionalLevels is only modelled after InitializeEnv; the memory of the previous levels is not freed if it is
called again (the leak is not modelled).  The polygon of a level is an input `foot` (the cells covered at a pose) together with `poly` (it has more than one point).
-/

namespace Sbpl

/-- what the caller of InitializeAdditionalLevels says about one level -/
structure LevelIn where
  foot : ℚ × ℚ × ℚ → List (Int × Int)
  poly : Bool
  inscr : Nat
  circ : Nat

/-- one additional level: its description, `AddLevelGrid2D[levelind]` and `AdditionalInfoinActionsV[..][..].intersectingcellsV[levelind]` -/
structure MLev where
  inp : LevelIn
  grid : Int → Int → Nat
  inter : Int → Nat → List (Int × Int)

/-- `EnvironmentNAVXYTHETAMLEVLAT` (environment_navxythetamlevlat.h:59-190): the base class part, the poses of the actions (`intermptV` of ActionsV), and the
additional levels (`none`: AddLevelGrid2D is NULL and there are no levels) -/
structure MEnv where
  env : XEnv
  pts : Int → Nat → List (ℚ × ℚ × ℚ)
  lev : Option (List MLev)

namespace MEnv

/-- the additional levels -/
def levels (st : MEnv) : List MLev := st.lev.getD []

/-- the loop of IsValidCell (environment_navxythetamlevlat.cpp:112-115): free at all additional levels -/
def freeAt (obs : Nat) (ls : List MLev) (x y : Int) : Bool := ls.all (fun l => !decide (l.grid x y ≥ obs))

/-- IsValidCell (environment_navxythetamlevlat.cpp:105-118) -/
def valid (c : XCfg) (ls : List MLev) (x y : Int) : Bool := if c.valid x y = false then false else freeAt c.obs ls x y

/-- IsValidCell for one level (environment_navxythetamlevlat.cpp:120-125) -/
def validAt (c : XCfg) (l : MLev) (x y : Int) : Bool := c.within x y && decide (l.grid x y < c.obs)

/-- `GetActionCost` of the base class (environment_navxythetalat.cpp:1540-1625), with the IsValidCell `v` of the object -/
def costWith (v : Int → Int → Bool) (c : XCfg) (sx sy : Int) (a : XAct) : Nat :=
  if v sx sy = false then INFINITECOST
  else if v (sx + a.dX) (sy + a.dY) = false then INFINITECOST
  else if c.grid (sx + a.dX) (sy + a.dY) ≥ c.inscr then INFINITECOST
  else
    match c.scan sx sy a.interm 0 with
    | none => INFINITECOST
    | some m =>
      if (c.poly && decide (m ≥ c.circ) && a.inter.any (fun q => !v (q.1 + sx) (q.2 + sy))) = true then INFINITECOST
      else a.cost * (max (max m (c.grid sx sy)) (c.grid (sx + a.dX) (sy + a.dY)) + 1)

/-- the loop over levels for one centre cell (environment_navxythetamlevlat.cpp:271-282); the state is maxcellcost and the levels with their
maxcellcostateachlevel -/
def levLoop (obs : Nat) (x y : Int) : List (MLev × Nat) → Nat → Nat × List (MLev × Nat)
  | [], m => (m, [])
  | (l, v) :: ls, m =>
    let m1 := max m (l.grid x y)
    let v1 := max v (l.grid x y)
    if v1 ≥ l.inp.inscr then (obs, (l, obs) :: ls)
    else
      let r := levLoop obs x y ls m1
      (r.1, (l, v1) :: r.2)

/-- the loop over centre cells (environment_navxythetamlevlat.cpp:259-283) -/
def centreLoop (c : XCfg) (sx sy : Int) : List (Int × Int) → Nat → List (MLev × Nat) → Nat × List (MLev × Nat)
  | [], m, ls => (m, ls)
  | q :: qs, m, ls =>
    if m ≥ c.obs then (m, ls)
    else if c.within (q.1 + sx) (q.2 + sy) = false then (c.obs, ls)
    else
      let r := levLoop c.obs (q.1 + sx) (q.2 + sy) ls m
      centreLoop c sx sy qs r.1 r.2

/-- the loop over levels that checks the cells swept (environment_navxythetamlevlat.cpp:284-314) -/
def footLoop (c : XCfg) (sx sy : Int) (a : XAct) : List (MLev × Nat) → Nat → Nat
  | [], m => m
  | (l, v) :: ls, m =>
    if m ≥ c.obs then m
    else if (l.inp.poly && decide (v ≥ l.inp.circ) && (l.inter a.startTheta a.aind).any (fun q => !validAt c l (q.1 + sx) (q.2 + sy))) = true
    then footLoop c sx sy a ls c.obs
    else footLoop c sx sy a ls m

/-- GetActionCostacrossAddLevels (environment_navxythetamlevlat.cpp:233-326) -/
def addCost (c : XCfg) (ls : List MLev) (sx sy : Int) (a : XAct) : Nat :=
  if valid c ls sx sy = false then INFINITECOST
  else if valid c ls (sx + a.dX) (sy + a.dY) = false then INFINITECOST
  else if ls = [] then 0
  else if ls.any (fun l => decide (l.grid (sx + a.dX) (sy + a.dY) ≥ l.inp.inscr)) = true then INFINITECOST
  else
    let r := centreLoop c sx sy a.interm 0 (ls.map (fun l => (l, 0)))
    let m := footLoop c sx sy a r.2 r.1
    if m ≥ c.obs then INFINITECOST else a.cost * (m + 1)

/-- GetActionCost (environment_navxythetamlevlat.cpp:221-231) -/
def actionCost (c : XCfg) (ls : List MLev) (sx sy : Int) (a : XAct) : Nat :=
  if costWith (valid c ls) c sx sy a ≥ INFINITECOST then INFINITECOST
  else max (costWith (valid c ls) c sx sy a) (addCost c ls sx sy a)

/-- one action of GetSuccs (environment_navxythetalat.cpp:2790-2806) with the overridden functions -/
def succAct (ls : List MLev) (c : XCfg) (k : XKey) (a : XAct) : Option (XKey × Nat) :=
  if valid c ls (k.1 + a.dX) (k.2.1 + a.dY) = false then none
  else if actionCost c ls k.1 k.2.1 a ≥ INFINITECOST then none
  else some (c.target k a, actionCost c ls k.1 k.2.1 a)

/-- one action of GetPreds (environment_navxythetalat.cpp:2853-2871) -/
def predAct (ls : List MLev) (c : XCfg) (k : XKey) (a : XAct) : Option (XKey × Nat) :=
  if valid c ls (k.1 - a.dX) (k.2.1 - a.dY) = false then none
  else if actionCost c ls (k.1 - a.dX) (k.2.1 - a.dY) a ≥ INFINITECOST then none
  else some (XCfg.source k a, actionCost c ls (k.1 - a.dX) (k.2.1 - a.dY) a)

/-- one action of GetLazySuccs (environment_navxythetalat.cpp:3234-3256) -/
def lazySuccAct (ls : List MLev) (c : XCfg) (k : XKey) (a : XAct) : Option (XKey × Nat) :=
  if valid c ls (k.1 + a.dX) (k.2.1 + a.dY) = false then none else some (c.target k a, a.cost)

/-- one action of GetLazyPreds (environment_navxythetalat.cpp:3368-3388) -/
def lazyPredAct (ls : List MLev) (c : XCfg) (k : XKey) (a : XAct) : Option (XKey × Nat) :=
  if valid c ls (k.1 - a.dX) (k.2.1 - a.dY) = false then none else some (XCfg.source k a, a.cost)

/-- put the base class part back -/
def back {α : Type} (st : MEnv) : Except XErr (XEnv × α) → Except XErr (MEnv × α)
  | .error e => .error e
  | .ok r => .ok ({ st with env := r.1 }, r.2)

/-- GetSuccs of the base class on this object -/
def getSuccs (st : MEnv) (id : Nat) : Except XErr (MEnv × List (Nat × Nat × XAct)) := st.back (st.env.succsBy (succAct st.levels) id)
/-- GetPreds of the base class on this object -/
def getPreds (st : MEnv) (id : Nat) : Except XErr (MEnv × List (Nat × Nat × XAct)) := st.back (st.env.predsBy (predAct st.levels) id)
/-- GetLazySuccs of the base class on this object -/
def getLazySuccs (st : MEnv) (id : Nat) : Except XErr (MEnv × List (Nat × Nat × XAct)) := st.back (st.env.succsBy (lazySuccAct st.levels) id)
/-- GetLazyPreds of the base class on this object -/
def getLazyPreds (st : MEnv) (id : Nat) : Except XErr (MEnv × List (Nat × Nat × XAct)) := st.back (st.env.predsBy (lazyPredAct st.levels) id)

/-- loop of GetTrueCost (environment_navxythetalat.cpp:3289-3316) with the overridden functions; `none` is -1 -/
def trueCostLoop (st : MEnv) (k : XKey) (child : Nat) : List XAct → Except XErr (Option Nat)
  | [] => .error .noTransition
  | a :: as =>
    if valid st.env.cfg st.levels (k.1 + a.dX) (k.2.1 + a.dY) = false then trueCostLoop st k child as
    else
      match st.env.find (st.env.cfg.target k a) with
      | none => trueCostLoop st k child as
      | some e =>
        if e.id ≠ child then trueCostLoop st k child as
        else if actionCost st.env.cfg st.levels k.1 k.2.1 a ≥ INFINITECOST then .ok none
        else .ok (some (actionCost st.env.cfg st.levels k.1 k.2.1 a))

/-- GetTrueCost (environment_navxythetalat.cpp:3284-3320) of the base class on this object -/
def getTrueCost (st : MEnv) (parent child : Nat) : Except XErr (Option Nat) :=
  match st.env.getCoord parent, st.env.getCoord child with
  | .ok k, .ok _ =>
    match st.env.cfg.actsAt k.2.2 with
    | .error e => .error e
    | .ok as => trueCostLoop st k child as
  | _, _ => .error .badId

/-- GetActionsFromStateIDPath (environment_navxythetalat.cpp:2357-2415) of the base class on this object -/
def pathActions (st : MEnv) : List Nat → Except XErr (MEnv × List XAct)
  | s :: t :: rest =>
    match st.getSuccs s with
    | .error e => .error e
    | .ok (st1, l) =>
      match XEnv.pick t l with
      | none => .error .noTransition
      | some e =>
        match pathActions st1 (t :: rest) with
        | .error er => .error er
        | .ok (st2, as) => .ok (st2, e.2.2 :: as)
  | _ => .ok (st, [])

/-- IsObstacle (environment_navxythetamlevlat.cpp:127-140; base: environment_navxythetalat.cpp:2173-2180); there is no range check -/
def isObstacle (st : MEnv) (x y : Int) : Except XErr Bool :=
  if st.env.cfg.within x y then
    .ok (if st.env.cfg.grid x y ≥ st.env.cfg.obs then true else st.levels.any (fun l => decide (l.grid x y ≥ st.env.cfg.obs)))
  else .error .oob

/-- GetMapCost (environment_navxythetamlevlat.cpp:157-167); there is no range check -/
def getMapCost (st : MEnv) (x y : Int) : Except XErr Nat :=
  if st.env.cfg.within x y then .ok (st.levels.foldl (fun m l => max m (l.grid x y)) (st.env.cfg.grid x y)) else .error .oob

/-- GetMapCost for one level (environment_navxythetamlevlat.cpp:169-182) -/
def getMapCostAt (st : MEnv) (x y : Int) (i : Nat) : Except XErr Nat :=
  match st.levels[i]? with
  | none => .error .oob
  | some l => if st.env.cfg.within x y then .ok (l.grid x y) else .error .oob

/-- the loop over the cells of a footprint (environment_navxythetalat.cpp:1526-1537, environment_navxythetamlevlat.cpp:206-215) -/
def footFree (c : XCfg) (grid : Int → Int → Nat) (cells : List (Int × Int)) : Bool :=
  cells.all (fun q => c.within q.1 q.2 && decide (grid q.1 q.2 < c.obs))

/-- IsValidConfiguration of the base class (environment_navxythetalat.cpp:1507-1538); `foot` and `th` as below -/
def _root_.Sbpl.XEnv.isValidConfig (st : XEnv) (foot : ℚ × ℚ × ℚ → List (Int × Int)) (th : Int → ℚ) (x y t : Int) : Bool :=
  footFree st.cfg st.cfg.grid (foot (Utils.discXY2Cont x st.cfg.cs, Utils.discXY2Cont y st.cfg.cs, th t))

/-- IsValidConfiguration (environment_navxythetamlevlat.cpp:184-219).  `foot` is the base footprint and
`th` the angle of the heading (DiscTheta2Cont, an approximation of a multiple of 2π/T, is an input). -/
def isValidConfig (st : MEnv) (foot : ℚ × ℚ × ℚ → List (Int × Int)) (th : Int → ℚ) (x y t : Int) : Bool :=
  let pose := (Utils.discXY2Cont x st.env.cfg.cs, Utils.discXY2Cont y st.env.cfg.cs, th t)
  if st.env.isValidConfig foot th x y t = false then false
  else st.levels.all (fun l => footFree st.env.cfg l.grid (l.inp.foot pose))

/-- InitializeAdditionalLevels (environment_navxythetamlevlat.cpp:339-425): the cells swept are computed for every action, the maps are all zero -/
def initLevels (st : MEnv) (ls : List LevelIn) : MEnv :=
  { st with lev := some (ls.map (fun l => { inp := l, grid := fun _ _ => 0, inter := fun t i => motionCells l.foot (st.pts t i) })) }

/-- change the map of one level -/
def setGrid (l : MLev) (g : Int → Int → Nat) : MLev := { l with grid := g }

/-- Set2DMapforAddLev (environment_navxythetamlevlat.cpp:427-444); `false` if the levels were not allocated; a wrong index is undefined behaviour -/
def setMapLev (st : MEnv) (map : Int → Nat) (i : Nat) : Except XErr (MEnv × Bool) :=
  match st.lev with
  | none => .ok (st, false)
  | some ls => if i < ls.length then .ok ({ st with lev := some (ls.modify i (fun l => setGrid l (fun x y => map (x + y * st.env.cfg.W)))) }, true)
    else .error .oob

/-- Set2DMapforAddLev from a two-dimensional array (environment_navxythetamlevlat.cpp:446-464) -/
def setMapLev2 (st : MEnv) (map : Int → Int → Nat) (i : Nat) : Except XErr (MEnv × Bool) :=
  match st.lev with
  | none => .ok (st, false)
  | some ls => if i < ls.length then .ok ({ st with lev := some (ls.modify i (fun l => setGrid l map)) }, true) else .error .oob

/-- UpdateCostinAddLev (environment_navxythetamlevlat.cpp:466-480): no range check at all -/
def updateLev (st : MEnv) (x y : Int) (v : Nat) (i : Nat) : Except XErr MEnv :=
  match st.lev with
  | none => .error .oob
  | some ls =>
    if i < ls.length ∧ st.env.cfg.within x y = true then
      .ok { st with lev := some (ls.modify i (fun l => setGrid l (fun a b => if a = x ∧ b = y then v else l.grid a b))) }
    else .error .oob

/-- construction and InitializeEnv -/
def init (s : XEnv.Setup) : Except XErr MEnv :=
  match XEnv.init s with
  | .error e => .error e
  | .ok st => .ok { env := st, lev := none,
                    pts := fun t i => match (s.prims.filter (fun m => decide (m.startTheta = t)))[i]? with | none => [] | some m => m.pts }

/-- One call on the environment. -/
inductive MOp where
  | base (op : XEnv.Op)
  | initLevels (ls : List LevelIn)
  | setMapLev (map : Int → Nat) (i : Nat)
  | setMapLev2 (map : Int → Int → Nat) (i : Nat)
  | updateLev (x y : Int) (v : Nat) (i : Nat)

/-- effect of a call; undefined behaviour is `none`.  GetPredsofChangedEdges throws an exception (environment_navxythetamlevlat.h:96-101). -/
def step (st : MEnv) : MOp → Option MEnv
  | .base (.getSuccs id) => match st.getSuccs id with | .ok r => some r.1 | .error _ => none
  | .base (.getPreds id) => match st.getPreds id with | .ok r => some r.1 | .error _ => none
  | .base (.getLazySuccs id) => match st.getLazySuccs id with | .ok r => some r.1 | .error _ => none
  | .base (.getLazyPreds id) => match st.getLazyPreds id with | .ok r => some r.1 | .error _ => none
  | .base (.getTrueCost a b) => match st.getTrueCost a b with | .ok _ => some st | .error .noTransition => some st | .error _ => none
  | .base (.pathActions l) => match st.pathActions l with | .ok r => some r.1 | .error _ => none
  | .base (.changedPreds _) => some st
  | .base op => match st.env.step op with | some e => some { st with env := e } | none => none
  | .initLevels ls => some (st.initLevels ls)
  | .setMapLev map i => match st.setMapLev map i with | .ok r => some r.1 | .error _ => none
  | .setMapLev2 map i => match st.setMapLev2 map i with | .ok r => some r.1 | .error _ => none
  | .updateLev x y v i => match st.updateLev x y v i with | .ok r => some r | .error _ => none

/-- a history of calls -/
def run (st : MEnv) : List MOp → Option MEnv
  | [] => some st
  | op :: ops => match st.step op with
    | none => none
    | some st1 => run st1 ops

end MEnv
end Sbpl
