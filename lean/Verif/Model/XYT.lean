import Verif.Model.Utils
import Verif.Model.StateTable
/-!
# `EnvironmentNAVXYTHETALAT` (src/discrete_space_information/environment_navxythetalat.cpp)

Modelled: SetConfiguration's checks, PrecomputeActionswithCompleteMotionPrimitive, ComputeReplanningData, InitializeEnvironment, both
coordinate ↔ ID stores (lookup table and hash table), GetActionCost, GetSuccs, GetPreds, GetLazySuccs, GetLazyPreds, GetTrueCost,
GetActionsFromStateIDPath, SetStart, SetGoal, UpdateCost, SetMap, GetPredsofChangedEdges.
Not modelled here: file parsing (Model/XYTFile), the environment without motion primitives (Model/XYTDefault), non-uniform angles, the base-primitive action table (which nothing calls), the computation of the basic cost of a
primitive from its length (the cost is an input), printing.  The conversion of paths to poses is in Model/XYTPath.lean.
Simplifications: `int` is `Int`/`Nat` (no overflow), `double` is exact; `unsigned char` is `Nat`; the set of cells covered by the robot at a pose
(`get_2d_footprint_cells`, utils.cpp:791) is an input `foot`, for a robot that is a point it is `pointFoot`.
Undefined behaviour and exceptions are the outcomes `XErr`.
-/

namespace Sbpl

/-- state coordinates (x, y, theta) -/
abbrev XKey := Int × Int × Int

/-- undefined behaviour (`oob`: access outside an array or to uninitialised memory, `badId`: ID out of range) and exceptions -/
inductive XErr where
  | oob | badId | badInput | noTransition
deriving DecidableEq, Repr

/-- `SBPL_xytheta_mprimitive` (environment_navxythetalat.h:104-117).  `cost` is the cost computed from the length of the primitive and its
multiplier (environment_navxythetalat.cpp:1197-1221).  `pts` are the poses `intermptV`; the cells the robot sweeps are computed from them as well, unless `swept` gives other
poses, which is the case for the actions used when there are no primitives (Model/XYTDefault). -/
structure MPrim where
  startTheta : Int
  dX : Int
  dY : Int
  endTheta : Int
  pts : List (ℚ × ℚ × ℚ)
  cost : Nat
  swept : Option (List (ℚ × ℚ × ℚ)) := none

/-- the poses from which the swept cells are computed (environment_navxythetalat.cpp:1236-1240; 1326-1337 without primitives) -/
def MPrim.poses (m : MPrim) : List (ℚ × ℚ × ℚ) := m.swept.getD m.pts

/-- `EnvNAVXYTHETALATAction_t` (environment_navxythetalat.h:64-85) -/
structure XAct where
  aind : Nat
  startTheta : Int
  endTheta : Int
  dX : Int
  dY : Int
  cost : Nat
  interm : List (Int × Int)
  inter : List (Int × Int)
deriving DecidableEq, Repr

/-- conversion of an `int` to a (signed, 8 bit) `char`: the type of the fields dX, dY, starttheta, endtheta of actions and Theta of states -/
def toChar (x : Int) : Int := (x + 128) % 256 - 128

/-- the cell of the centre of the robot at an intermediate pose; the source pose is the centre of cell (0, 0)
(environment_navxythetalat.cpp:1144-1148, 1180-1188) -/
def centreCell (cs : ℚ) (p : ℚ × ℚ × ℚ) : Int × Int :=
  (Utils.contXY2Disc (p.1 + Utils.discXY2Cont 0 cs) cs, Utils.contXY2Disc (p.2.1 + Utils.discXY2Cont 0 cs) cs)

/-- interm3DcellsV (environment_navxythetalat.cpp:1171-1201): cells equal to their predecessor are not repeated -/
def intermCells (cs : ℚ) (pts : List (ℚ × ℚ × ℚ)) : List (Int × Int) :=
  (pts.foldl (fun (r : List (Int × Int) × (Int × Int)) p =>
    let q := centreCell cs p
    (if r.1 = [] ∨ q ≠ r.2 then r.1 ++ [q] else r.1, q)) ([], (0, 0))).1

/-- get_2d_motion_cells (utils.cpp:744-771): the cells covered at some pose, without those covered at the first pose.  The order of the
`std::set` and the removal of duplicates are not modelled. -/
def motionCells (foot : ℚ × ℚ × ℚ → List (Int × Int)) : List (ℚ × ℚ × ℚ) → List (Int × Int)
  | [] => []
  | p :: ps => ((p :: ps).flatMap foot).filter (fun q => decide (q ∉ foot p))

/-- get_2d_footprint_cells for a robot that is a point (utils.cpp:793-801) -/
def pointFoot (cs : ℚ) (p : ℚ × ℚ × ℚ) : List (Int × Int) := [(Utils.contXY2Disc p.1 cs, Utils.contXY2Disc p.2.1 cs)]

/-- one action (environment_navxythetalat.cpp:1160-1236); starttheta is the angle `tind` of the loop, which equals starttheta_c -/
def mkAct (cs : ℚ) (foot : ℚ × ℚ × ℚ → List (Int × Int)) (aind : Nat) (m : MPrim) : XAct :=
  { aind, startTheta := toChar m.startTheta, endTheta := toChar m.endTheta, dX := toChar m.dX, dY := toChar m.dY, cost := m.cost,
    interm := intermCells cs m.pts, inter := motionCells foot m.poses }

/-- ActionsV[tind] (environment_navxythetalat.cpp:1150-1236) -/
def actsFor (cs : ℚ) (foot : ℚ × ℚ × ℚ → List (Int × Int)) (prims : List MPrim) (t : Int) : List XAct :=
  (prims.filter (fun m => decide (m.startTheta = t))).mapIdx (mkAct cs foot)

/-- all actions, in the order of the loops over angles and actions -/
def allActs (T : Nat) (acts : Int → List XAct) : List XAct := (List.range T).flatMap (fun (t : Nat) => acts (t : Int))

/-- the index into PredActionsV (environment_navxythetalat.cpp:1259-1264) -/
def predIdx (T : Nat) (a : XAct) : Int := if a.endTheta < 0 then a.endTheta + T else a.endTheta

/-- one action's contribution to affectedpredstatesV (environment_navxythetalat.cpp:875-994) -/
def affOf (a : XAct) : List XKey :=
  a.inter.map (fun q => (-q.1, -q.2, a.startTheta)) ++ [(0, 0, a.startTheta), (-a.dX, -a.dY, a.startTheta)]

/-- store the cells if not already there -/
def addNew (l : List XKey) (k : XKey) : List XKey := if k ∈ l then l else l ++ [k]

/-- ComputeReplanningData (environment_navxythetalat.cpp:999-1011), affectedpredstatesV -/
def affPreds (acts : List XAct) : List XKey := (acts.flatMap affOf).foldl addNew []

/-- `EnvNAVXYTHETALATConfig_t` (environment_navxythetalat.h:119-175) and the tables computed from it.  `poly`: the footprint has more than one
point; `lookup`: states are stored in the lookup table -/
structure XCfg where
  W : Int
  H : Int
  T : Nat
  cs : ℚ
  obs : Nat
  inscr : Nat
  circ : Nat
  poly : Bool
  grid : Int → Int → Nat
  acts : Int → List XAct
  preds : Int → List XAct
  aff : List XKey
  lookup : Bool
  start : XKey
  goal : XKey

namespace XCfg

/-- `IsWithinMapCell` (environment_navxythetalat.cpp:1501-1505) -/
def within (c : XCfg) (x y : Int) : Bool := decide (0 ≤ x ∧ x < c.W ∧ 0 ≤ y ∧ y < c.H)

/-- `IsValidCell` (environment_navxythetalat.cpp:1494-1499) -/
def valid (c : XCfg) (x y : Int) : Bool := c.within x y && decide (c.grid x y < c.obs)

/-- loop over the centre cells (environment_navxythetalat.cpp:1569-1588); `none`: return INFINITECOST -/
def scan (c : XCfg) (sx sy : Int) : List (Int × Int) → Nat → Option Nat
  | [], m => some m
  | q :: qs, m =>
    if c.within (q.1 + sx) (q.2 + sy) = false then none
    else
      let m' := max m (c.grid (q.1 + sx) (q.2 + sy))
      if m' ≥ c.inscr then none else scan c sx sy qs m'

/-- `GetActionCost` (environment_navxythetalat.cpp:1540-1625) -/
def actionCost (c : XCfg) (sx sy : Int) (a : XAct) : Nat :=
  if c.valid sx sy = false then INFINITECOST
  else if c.valid (sx + a.dX) (sy + a.dY) = false then INFINITECOST
  else if c.grid (sx + a.dX) (sy + a.dY) ≥ c.inscr then INFINITECOST
  else
    match c.scan sx sy a.interm 0 with
    | none => INFINITECOST
    | some m =>
      if (c.poly && decide (m ≥ c.circ) && a.inter.any (fun q => !c.valid (q.1 + sx) (q.2 + sy))) = true then INFINITECOST
      else a.cost * (max (max m (c.grid sx sy)) (c.grid (sx + a.dX) (sy + a.dY)) + 1)

/-- target of an action; `normalizeDiscAngle` (environment_navxythetalat.cpp:509-523, 2791-2794) -/
def target (c : XCfg) (k : XKey) (a : XAct) : XKey := (k.1 + a.dX, k.2.1 + a.dY, Utils.normDiscTheta a.endTheta c.T)

/-- source of an action that ends in `k` (environment_navxythetalat.cpp:2855-2859) -/
def source (k : XKey) (a : XAct) : XKey := (k.1 - a.dX, k.2.1 - a.dY, a.startTheta)

/-- one action of GetSuccs (environment_navxythetalat.cpp:2790-2806) -/
def succAct (c : XCfg) (k : XKey) (a : XAct) : Option (XKey × Nat) :=
  if c.valid (k.1 + a.dX) (k.2.1 + a.dY) = false then none
  else if c.actionCost k.1 k.2.1 a ≥ INFINITECOST then none
  else some (c.target k a, c.actionCost k.1 k.2.1 a)

/-- one action of GetPreds (environment_navxythetalat.cpp:2853-2871) -/
def predAct (c : XCfg) (k : XKey) (a : XAct) : Option (XKey × Nat) :=
  if c.valid (k.1 - a.dX) (k.2.1 - a.dY) = false then none
  else if c.actionCost (k.1 - a.dX) (k.2.1 - a.dY) a ≥ INFINITECOST then none
  else some (source k a, c.actionCost (k.1 - a.dX) (k.2.1 - a.dY) a)

/-- one action of GetLazySuccs without action output (environment_navxythetalat.cpp:3234-3256) -/
def lazySuccAct (c : XCfg) (k : XKey) (a : XAct) : Option (XKey × Nat) :=
  if c.valid (k.1 + a.dX) (k.2.1 + a.dY) = false then none else some (c.target k a, a.cost)

/-- one action of GetLazyPreds (environment_navxythetalat.cpp:3368-3388) -/
def lazyPredAct (c : XCfg) (k : XKey) (a : XAct) : Option (XKey × Nat) :=
  if c.valid (k.1 - a.dX) (k.2.1 - a.dY) = false then none else some (source k a, a.cost)

/-- ActionsV[theta] -/
def actsAt (c : XCfg) (t : Int) : Except XErr (List XAct) := if 0 ≤ t ∧ t < c.T then .ok (c.acts t) else .error .oob
/-- PredActionsV[theta] -/
def predsAt (c : XCfg) (t : Int) : Except XErr (List XAct) := if 0 ≤ t ∧ t < c.T then .ok (c.preds t) else .error .oob

/-- the range check of GetHashEntry_lookup (environment_navxythetalat.cpp:2618-2623) -/
def inRange (c : XCfg) (k : XKey) : Bool := c.within k.1 k.2.1 && decide (0 ≤ k.2.2 ∧ k.2.2 < c.T)

/-- XYTHETA2INDEX (environment_navxythetalat.cpp:48-49) -/
def index (c : XCfg) (k : XKey) : Int := k.2.2 + k.1 * c.T + k.2.1 * c.W * c.T

/-- GETHASHBIN (environment_navxythetalat.cpp:3083-3089), HashTableSize = 4 * 1024 * 1024 -/
def hashBin (k : XKey) : Nat :=
  (inthash (inthash (toU32 k.1) + (inthash (toU32 k.2.1) <<< 1) + (inthash (toU32 k.2.2) <<< 2)) &&& 4194303).toNat

end XCfg

/-- `EnvironmentNAVXYTHETALAT` data.  `stamp id` is the field `iteration` of the entry of state `id`. -/
structure XEnv where
  cfg : XCfg
  tab : StateTable XKey
  stamp : Nat → Nat
  iter : Nat
  startId : Nat
  goalId : Nat
  needStart : Bool
  needGoal : Bool

namespace XEnv

/-- GetHashEntry_lookup / GetHashEntry_hash (environment_navxythetalat.cpp:2615-2664) -/
def find (st : XEnv) (k : XKey) : Option (HEntry XKey) :=
  if st.cfg.lookup then (if st.cfg.inRange k then (st.tab.bins (st.cfg.index k).toNat).head? else none)
  else st.tab.find XCfg.hashBin k

/-- CreateNewHashEntry_lookup / CreateNewHashEntry_hash (environment_navxythetalat.cpp:2666-2755).  The lookup table has one entry per slot; there
is no range check, so a new entry may replace another one, and an index outside the table is undefined behaviour. -/
def create (st : XEnv) (k : XKey) : Except XErr (XEnv × Nat) :=
  let e : HEntry XKey := ⟨(k.1, k.2.1, toChar k.2.2), st.tab.table.length⟩
  let st1 := { st with stamp := upd st.stamp e.id 0 }
  if st.cfg.lookup then
    if 0 ≤ st.cfg.index k ∧ st.cfg.index k < st.cfg.W * st.cfg.H * st.cfg.T then
      .ok ({ st1 with tab := ⟨st.tab.table ++ [e], upd st.tab.bins (st.cfg.index k).toNat [e]⟩ }, e.id)
    else .error .oob
  else .ok ({ st1 with tab := (st.tab.create XCfg.hashBin e.coord).1 }, e.id)

/-- GetStateFromCoord (environment_navxythetalat.cpp:2347-2355) -/
def getState (st : XEnv) (k : XKey) : Except XErr (XEnv × Nat) :=
  match st.find k with
  | some e => .ok (st, e.id)
  | none => st.create k

/-- GetCoordFromState (environment_navxythetalat.cpp:2338-2345) -/
def getCoord (st : XEnv) (id : Nat) : Except XErr XKey :=
  match st.tab.coord id with
  | none => .error .badId
  | some k => .ok k

/-- the loops over actions; `f` is the treatment of one action -/
def actLoop (f : XAct → Option (XKey × Nat)) : List XAct → XEnv → Except XErr (XEnv × List (Nat × Nat × XAct))
  | [], st => .ok (st, [])
  | a :: as, st =>
    match f a with
    | none => actLoop f as st
    | some (k, cost) =>
      match st.getState k with
      | .error e => .error e
      | .ok (st1, id) =>
        match actLoop f as st1 with
        | .error e => .error e
        | .ok (st2, l) => .ok (st2, (id, cost, a) :: l)

/-- GetSuccs with or without lazy costs; `f` treats one action from the source coordinates -/
def succsBy (f : XCfg → XKey → XAct → Option (XKey × Nat)) (st : XEnv) (id : Nat) : Except XErr (XEnv × List (Nat × Nat × XAct)) :=
  if id = st.goalId then .ok (st, [])
  else
    match st.getCoord id with
    | .error e => .error e
    | .ok k =>
      match st.cfg.actsAt k.2.2 with
      | .error e => .error e
      | .ok as => actLoop (f st.cfg k) as st

/-- GetPreds with or without lazy costs -/
def predsBy (f : XCfg → XKey → XAct → Option (XKey × Nat)) (st : XEnv) (id : Nat) : Except XErr (XEnv × List (Nat × Nat × XAct)) :=
  match st.getCoord id with
  | .error e => .error e
  | .ok k =>
    match st.cfg.predsAt k.2.2 with
    | .error e => .error e
    | .ok as => actLoop (f st.cfg k) as st

/-- GetSuccs (environment_navxythetalat.cpp:2757-2820): (successor ID, cost, action) -/
def getSuccs (st : XEnv) (id : Nat) : Except XErr (XEnv × List (Nat × Nat × XAct)) := st.succsBy XCfg.succAct id
/-- GetPreds (environment_navxythetalat.cpp:2822-2886) -/
def getPreds (st : XEnv) (id : Nat) : Except XErr (XEnv × List (Nat × Nat × XAct)) := st.predsBy XCfg.predAct id
/-- GetLazySuccs without action output (environment_navxythetalat.cpp:3203-3282); the flags are all `false` and not modelled -/
def getLazySuccs (st : XEnv) (id : Nat) : Except XErr (XEnv × List (Nat × Nat × XAct)) := st.succsBy XCfg.lazySuccAct id
/-- GetLazyPreds (environment_navxythetalat.cpp:3344-3395) -/
def getLazyPreds (st : XEnv) (id : Nat) : Except XErr (XEnv × List (Nat × Nat × XAct)) := st.predsBy XCfg.lazyPredAct id

/-- loop of GetTrueCost (environment_navxythetalat.cpp:3289-3316): the cost of the first action that leads to the child; `none` is -1 -/
def trueCostLoop (st : XEnv) (k : XKey) (child : Nat) : List XAct → Except XErr (Option Nat)
  | [] => .error .noTransition
  | a :: as =>
    if st.cfg.valid (k.1 + a.dX) (k.2.1 + a.dY) = false then trueCostLoop st k child as
    else
      match st.find (st.cfg.target k a) with
      | none => trueCostLoop st k child as
      | some e =>
        if e.id ≠ child then trueCostLoop st k child as
        else if st.cfg.actionCost k.1 k.2.1 a ≥ INFINITECOST then .ok none
        else .ok (some (st.cfg.actionCost k.1 k.2.1 a))

/-- GetTrueCost (environment_navxythetalat.cpp:3284-3320) -/
def getTrueCost (st : XEnv) (parent child : Nat) : Except XErr (Option Nat) :=
  match st.getCoord parent, st.getCoord child with
  | .ok k, .ok _ =>
    match st.cfg.actsAt k.2.2 with
    | .error e => .error e
    | .ok as => trueCostLoop st k child as
  | _, _ => .error .badId

/-- the cost of the best successor so far (environment_navxythetalat.cpp:2384) -/
def bestCost : Option (Nat × Nat × XAct) → Nat
  | none => INFINITECOST
  | some b => b.2.1

/-- one successor (environment_navxythetalat.cpp:2385-2395) -/
def pickStep (target : Nat) (best : Option (Nat × Nat × XAct)) (e : Nat × Nat × XAct) : Option (Nat × Nat × XAct) :=
  if e.1 = target ∧ e.2.1 ≤ bestCost best then some e else best

/-- the successor picked for a transition (environment_navxythetalat.cpp:2385-2395): the last one of least cost -/
def pick (target : Nat) (l : List (Nat × Nat × XAct)) : Option (Nat × Nat × XAct) := l.foldl (pickStep target) none

/-- GetActionsFromStateIDPath (environment_navxythetalat.cpp:2357-2415) -/
def pathActions (st : XEnv) : List Nat → Except XErr (XEnv × List XAct)
  | s :: t :: rest =>
    match st.getSuccs s with
    | .error e => .error e
    | .ok (st1, l) =>
      match pick t l with
      | none => .error .noTransition
      | some e =>
        match pathActions st1 (t :: rest) with
        | .error er => .error er
        | .ok (st2, as) => .ok (st2, e.2.2 :: as)
  | _ => .ok (st, [])

/-- SetGoal (environment_navxythetalat.cpp:2503-2543); `none` is the return value -1 -/
def setGoal (st : XEnv) (x y th : ℚ) : Except XErr (XEnv × Option Nat) :=
  let k : XKey := (Utils.contXY2Disc x st.cfg.cs, Utils.contXY2Disc y st.cfg.cs, Utils.contTheta2Disc th st.cfg.T)
  if st.cfg.within k.1 k.2.1 = false then .ok (st, none)
  else
    match st.getState k with
    | .error e => .error e
    | .ok (st1, id) =>
      .ok ({ st1 with needStart := st1.needStart || decide (st1.goalId ≠ id), needGoal := st1.needGoal || decide (st1.goalId ≠ id),
                      goalId := id, cfg := { st1.cfg with goal := k } }, some id)

/-- SetStart (environment_navxythetalat.cpp:2545-2585) -/
def setStart (st : XEnv) (x y th : ℚ) : Except XErr (XEnv × Option Nat) :=
  let k : XKey := (Utils.contXY2Disc x st.cfg.cs, Utils.contXY2Disc y st.cfg.cs, Utils.contTheta2Disc th st.cfg.T)
  if st.cfg.within k.1 k.2.1 = false then .ok (st, none)
  else
    match st.getState k with
    | .error e => .error e
    | .ok (st1, id) =>
      .ok ({ st1 with needStart := st1.needStart || decide (st1.startId ≠ id), needGoal := st1.needGoal || decide (st1.startId ≠ id),
                      startId := id, cfg := { st1.cfg with start := k } }, some id)

/-- UpdateCost (environment_navxythetalat.cpp:2118-2129) -/
def updateCost (st : XEnv) (x y : Int) (v : Nat) : Except XErr XEnv :=
  if st.cfg.within x y then
    .ok { st with cfg := { st.cfg with grid := fun a b => if a = x ∧ b = y then v else st.cfg.grid a b },
                  needStart := true, needGoal := true }
  else .error .oob

/-- SetMap (environment_navxythetalat.cpp:2131-2145) -/
def setMap (st : XEnv) (map : Int → Nat) : XEnv :=
  { st with cfg := { st.cfg with grid := fun x y => map (x + y * st.cfg.W) }, needStart := true, needGoal := true }

/-- inner loop of GetPredsofChangedEdges (environment_navxythetalat.cpp:2957-2974) -/
def changedAt (x y : Int) : List XKey → XEnv → XEnv × List Nat
  | [], st => (st, [])
  | k :: ks, st =>
    match st.find (k.1 + x, k.2.1 + y, k.2.2) with
    | none => changedAt x y ks st
    | some e =>
      if st.stamp e.id < st.iter then
        let r := changedAt x y ks { st with stamp := upd st.stamp e.id st.iter }
        (r.1, e.id :: r.2)
      else changedAt x y ks st

/-- outer loop of GetPredsofChangedEdges -/
def changedLoop : List (Int × Int) → XEnv → XEnv × List Nat
  | [], st => (st, [])
  | q :: qs, st =>
    let r := changedAt q.1 q.2 st.cfg.aff st
    let r2 := changedLoop qs r.1
    (r2.1, r.2 ++ r2.2)

/-- GetPredsofChangedEdges (environment_navxythetalat.cpp:2943-2976) -/
def changedPreds (st : XEnv) (cells : List (Int × Int)) : XEnv × List Nat :=
  changedLoop cells { st with iter := st.iter + 1 }

/-- PrecomputeActionswithCompleteMotionPrimitive (environment_navxythetalat.cpp:1125-1287): the action tables, or: a number of primitives that
is not a multiple of the number of angles (exception; a number of 0 angles is a division by zero), too many actions for an angle (write outside the array), too few
(exception, or actions left uninitialised), or a final angle that is no index into PredActionsV (write outside the array). -/
def precompute (T : Nat) (cs : ℚ) (foot : ℚ × ℚ × ℚ → List (Int × Int)) (prims : List MPrim) :
    Except XErr ((Int → List XAct) × (Int → List XAct)) :=
  if T = 0 then .error .oob
  else if prims.length % T ≠ 0 then .error .badInput
  else if (List.range T).any (fun (t : Nat) => decide ((actsFor cs foot prims t).length > prims.length / T)) then .error .oob
  else if (allActs T (actsFor cs foot prims)).any (fun a => decide (predIdx T a < 0 ∨ predIdx T a ≥ T)) then .error .oob
  else if prims.length ≠ T * ((List.range T).map (fun (t : Nat) => (actsFor cs foot prims t).length)).foldl max 0 then .error .badInput
  else if (List.range T).any (fun (t : Nat) => decide ((actsFor cs foot prims t).length < prims.length / T)) then .error .oob
  else .ok (actsFor cs foot prims,
    fun t => (allActs T (actsFor cs foot prims)).filter (fun a => decide (predIdx T a = t)))

/-- the part of the configuration given by the caller of InitializeEnv -/
structure Setup where
  W : Int
  H : Int
  T : Nat
  cs : ℚ
  obs : Nat
  inscr : Nat
  circ : Nat
  poly : Bool
  foot : ℚ × ℚ × ℚ → List (Int × Int)
  prims : List MPrim
  map : Int → Nat
  start : XKey
  goal : XKey

/-- the object before the start and goal states are created (environment_navxythetalat.cpp:128-215, 3007-3045) -/
def fresh (s : Setup) (acts preds : Int → List XAct) : XEnv :=
  { cfg := { W := s.W, H := s.H, T := s.T, cs := s.cs, obs := s.obs, inscr := s.inscr, circ := s.circ, poly := s.poly,
             grid := fun x y => s.map (x + y * s.W), acts := acts, preds := preds,
             aff := affPreds (allActs s.T acts), lookup := decide (s.W * s.H * s.T ≤ 100000000),
             start := s.start, goal := s.goal },
    tab := StateTable.empty, stamp := fun _ => 0, iter := 0, startId := 0, goalId := 0, needStart := true, needGoal := true }

/-- SetConfiguration, InitializeEnvConfig and InitializeEnvironment (environment_navxythetalat.cpp:128-215, 1437-1493, 3007-3077) -/
def init (s : Setup) : Except XErr XEnv :=
  if ¬(0 ≤ s.start.1 ∧ s.start.1 < s.W ∧ 0 ≤ s.start.2.1 ∧ s.start.2.1 < s.H ∧ 0 ≤ s.start.2.2 ∧ s.start.2.2 < s.T) then .error .badInput
  else if ¬(0 ≤ s.goal.1 ∧ s.goal.1 < s.W ∧ 0 ≤ s.goal.2.1 ∧ s.goal.2.1 < s.H ∧ 0 ≤ s.goal.2.2 ∧ s.goal.2.2 < s.T) then .error .badInput
  else
    match precompute s.T s.cs s.foot s.prims with
    | .error e => .error e
    | .ok (acts, preds) =>
      match (fresh s acts preds).getState s.start with
      | .error e => .error e
      | .ok (st1, i) =>
        match st1.getState s.goal with
        | .error e => .error e
        | .ok (st2, j) => .ok { st2 with startId := i, goalId := j }

/-- One call on the environment. -/
inductive Op where
  | getState (k : XKey)
  | getSuccs (id : Nat)
  | getPreds (id : Nat)
  | getLazySuccs (id : Nat)
  | getLazyPreds (id : Nat)
  | getTrueCost (a b : Nat)
  | pathActions (l : List Nat)
  | setStart (x y th : ℚ)
  | setGoal (x y th : ℚ)
  | updateCost (x y : Int) (v : Nat)
  | setMap (map : Int → Nat)
  | changedPreds (cells : List (Int × Int))

/-- effect of a call on the environment; an exception in a call that only asks leaves it as it is (for pathActions: as after the transitions already
treated, which is not modelled), undefined behaviour is `none` -/
def step (st : XEnv) : Op → Option XEnv
  | .getState k => match st.getState k with | .ok r => some r.1 | .error _ => none
  | .getSuccs id => match st.getSuccs id with | .ok r => some r.1 | .error _ => none
  | .getPreds id => match st.getPreds id with | .ok r => some r.1 | .error _ => none
  | .getLazySuccs id => match st.getLazySuccs id with | .ok r => some r.1 | .error _ => none
  | .getLazyPreds id => match st.getLazyPreds id with | .ok r => some r.1 | .error _ => none
  | .getTrueCost a b => match st.getTrueCost a b with | .ok _ => some st | .error .noTransition => some st | .error _ => none
  | .pathActions l => match st.pathActions l with | .ok r => some r.1 | .error _ => none
  | .setStart x y th => match st.setStart x y th with | .ok r => some r.1 | .error _ => none
  | .setGoal x y th => match st.setGoal x y th with | .ok r => some r.1 | .error _ => none
  | .updateCost x y v => match st.updateCost x y v with | .ok r => some r | .error _ => none
  | .setMap map => some (st.setMap map)
  | .changedPreds cs => some (st.changedPreds cs).1

/-- a history of calls -/
def run (st : XEnv) : List Op → Option XEnv
  | [] => some st
  | op :: ops => match st.step op with
    | none => none
    | some st1 => run st1 ops

end XEnv
end Sbpl
