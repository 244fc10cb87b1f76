import Mathlib.Data.Nat.Sqrt
import Verif.Model.StateTable
/-!
# `EnvironmentNAV2D` (src/discrete_space_information/environment_nav2D.cpp)

Modelled: initialisation from a map, state IDs, GetSuccs, GetPreds, heuristics, SetStart, SetGoal, UpdateCost,
reports of changed edges.
Not modelled: file parsing, GetRandomNeighs, SetAllActionsandAllOutcomes (same text as GetSuccs), printing.
Simplifications: `int` is `Int`/`Nat` (no overflow); `sqrt` on doubles is exact, see `heur`.
Undefined behaviour (grid access outside the map, ID out of range) is the outcome `EnvErr`.
-/

namespace Sbpl

/-- undefined behaviour or exception -/
inductive EnvErr where
  | oob | badId | illegalStart
deriving DecidableEq, Repr

/-- one row of the action tables `dx_`, `dy_`, `dxintersects_`, `dyintersects_`; `small` means `aind <= 7` -/
structure Act where
  dx : Int
  dy : Int
  i0 : Int × Int
  i1 : Int × Int
  small : Bool
deriving DecidableEq, Repr

/-- `Computedxy` (environment_nav2D.cpp:272-387), rows 0..15 -/
def navActs : List Act :=
  [⟨1, 1, (0, 1), (1, 0), true⟩, ⟨1, 0, (0, 0), (0, 0), true⟩, ⟨1, -1, (0, -1), (1, 0), true⟩,
   ⟨0, 1, (0, 0), (0, 0), true⟩, ⟨0, -1, (0, 0), (0, 0), true⟩, ⟨-1, 1, (0, 1), (-1, 0), true⟩,
   ⟨-1, 0, (0, 0), (0, 0), true⟩, ⟨-1, -1, (0, -1), (-1, 0), true⟩,
   ⟨2, 1, (1, 0), (1, 1), false⟩, ⟨1, 2, (0, 1), (1, 1), false⟩, ⟨-1, 2, (0, 1), (-1, 1), false⟩,
   ⟨-2, 1, (-1, 0), (-1, 1), false⟩, ⟨-2, -1, (-1, 0), (-1, -1), false⟩, ⟨-1, -2, (0, -1), (-1, -1), false⟩,
   ⟨1, -2, (0, -1), (1, -1), false⟩, ⟨2, -1, (1, 0), (1, -1), false⟩]

/-- `dxy_distance_mm_` (environment_nav2D.cpp:389-401); `ceil(1000*1.414) = 1414`, `ceil(1000*2.236) = 2236` -/
def Act.dist (a : Act) : Nat :=
  if a.dx ≠ 0 ∧ a.dy ≠ 0 then (if a.small then 1414 else 2236) else 1000

/-- `EnvNAV2DConfig_t` (environment_nav2D.h:46-72) -/
structure NavCfg where
  W : Int
  H : Int
  obs : Nat
  grid : Int → Int → Nat
  dirs : Nat
  start : Int × Int
  goal : Int × Int

/-- `EnvironmentNAV2D` data (environment_nav2D.h:83-103) -/
structure Nav2D where
  cfg : NavCfg
  tab : StateTable (Int × Int)
  startId : Nat
  goalId : Nat

namespace NavCfg

/-- `Grid2D[x][y]`: reading outside the allocated map is undefined behaviour -/
def cell (c : NavCfg) (x y : Int) : Except EnvErr Nat :=
  if 0 ≤ x ∧ x < c.W ∧ 0 ≤ y ∧ y < c.H then .ok (c.grid x y) else .error .oob

/-- `IsWithinMapCell` (environment_nav2D.cpp:488-491) -/
def within (c : NavCfg) (x y : Int) : Bool := decide (0 ≤ x ∧ x < c.W ∧ 0 ≤ y ∧ y < c.H)

/-- `IsValidCell` (environment_nav2D.cpp:482-486); `&&` short-circuits, so no access outside the map -/
def valid (c : NavCfg) (x y : Int) : Bool := c.within x y && decide (c.grid x y < c.obs)

/-- the actions in use: indices `0 .. numofdirs - 1` -/
def acts (c : NavCfg) : List Act := navActs.take c.dirs

/-- `bTestBounds` (environment_nav2D.cpp:878-884, 952-958) -/
def testBounds (c : NavCfg) (x y : Int) : Bool :=
  decide (x ≤ 1 ∨ x ≥ c.W - 2 ∨ y ≤ 1 ∨ y ≥ c.H - 2)

/-- the cost multiplier: maximum of `base` and the cells through which action `a` from `(x, y)` goes
(environment_nav2D.cpp:894-909, 970-988) -/
def costMult (c : NavCfg) (x y : Int) (a : Act) (base : Nat) : Except EnvErr Nat :=
  if (x + a.dx ≠ x ∧ y + a.dy ≠ y) ∧ a.small = true then
    match c.cell x (y + a.dy) with
    | .error e => .error e
    | .ok v0 =>
      match c.cell (x + a.dx) y with
      | .error e => .error e
      | .ok v1 => .ok (max (max base v0) v1)
  else if a.small = false then
    match c.cell (x + a.i0.1) (y + a.i0.2) with
    | .error e => .error e
    | .ok v0 =>
      match c.cell (x + a.i1.1) (y + a.i1.2) with
      | .error e => .error e
      | .ok v1 => .ok (max (max base v0) v1)
  else .ok base

/-- one action of GetSuccs (environment_nav2D.cpp:885-923): skipped (`none`), or target cell and cost -/
def succAct (c : NavCfg) (x y : Int) (a : Act) : Except EnvErr (Option ((Int × Int) × Nat)) :=
  if c.testBounds x y = true ∧ c.valid (x + a.dx) (y + a.dy) = false then .ok none
  else
    match c.cell (x + a.dx) (y + a.dy) with
    | .error e => .error e
    | .ok t =>
      match c.costMult x y a t with
      | .error e => .error e
      | .ok m => if m ≥ c.obs then .ok none else .ok (some ((x + a.dx, y + a.dy), (m + 1) * a.dist))

/-- one action of GetPreds (environment_nav2D.cpp:959-1005); `t` is the cost of the target cell `(x, y)` -/
def predAct (c : NavCfg) (x y : Int) (t : Nat) (a : Act) : Except EnvErr (Option ((Int × Int) × Nat)) :=
  if c.testBounds x y = true ∧ c.valid (x + a.dx) (y + a.dy) = false then .ok none
  else
    match c.costMult x y a t with
    | .error e => .error e
    | .ok m => if m ≥ c.obs then .ok none else .ok (some ((x + a.dx, y + a.dy), (m + 1) * a.dist))

end NavCfg

namespace Nav2D

/-- `GETHASHBIN` (environment_nav2D.cpp:77-80), HashTableSize = 64 * 1024 (environment_nav2D.cpp:516) -/
def hash (k : Int × Int) : Nat :=
  (inthash (inthash (toU32 k.1) + (inthash (toU32 k.2) <<< 1)) &&& 65535).toNat

/-- `GetStateFromCoord` (environment_nav2D.cpp:1046-1054) -/
def getState (st : Nav2D) (k : Int × Int) : Nav2D × Nat :=
  ({ st with tab := (st.tab.getId hash k).1 }, (st.tab.getId hash k).2)

/-- `GetCoordFromState` (environment_nav2D.cpp:1039-1044) -/
def getCoord (st : Nav2D) (id : Nat) : Except EnvErr (Int × Int) :=
  match st.tab.coord id with
  | none => .error .badId
  | some k => .ok k

/-- loop over the actions in GetSuccs / GetPreds; `f` is the treatment of one action -/
def actLoop (f : Act → Except EnvErr (Option ((Int × Int) × Nat))) :
    List Act → Nav2D → Except EnvErr (Nav2D × List (Nat × Nat))
  | [], st => .ok (st, [])
  | a :: as, st =>
    match f a with
    | .error e => .error e
    | .ok none => actLoop f as st
    | .ok (some (k, cost)) =>
      match actLoop f as (st.getState k).1 with
      | .error e => .error e
      | .ok (st', l) => .ok (st', ((st.getState k).2, cost) :: l)

/-- `GetSuccs` (environment_nav2D.cpp:856-928) -/
def getSuccs (st : Nav2D) (id : Nat) : Except EnvErr (Nav2D × List (Nat × Nat)) :=
  if id = st.goalId then .ok (st, [])
  else
    match st.getCoord id with
    | .error e => .error e
    | .ok (x, y) => actLoop (st.cfg.succAct x y) st.cfg.acts st

/-- `GetPreds` (environment_nav2D.cpp:930-1010) -/
def getPreds (st : Nav2D) (id : Nat) : Except EnvErr (Nav2D × List (Nat × Nat)) :=
  match st.getCoord id with
  | .error e => .error e
  | .ok (x, y) =>
    match st.cfg.cell x y with
    | .error e => .error e
    | .ok t =>
      if t ≥ st.cfg.obs then .ok (st, [])
      else actLoop (st.cfg.predAct x y t) st.cfg.acts st

/-- `SetConfiguration` + `InitializeEnvironment` (environment_nav2D.cpp:106-146, 511-535): the start must lie in
the map, the goal is not checked. -/
def init (W H : Int) (map : Int → Nat) (start goal : Int × Int) (obs dirs : Nat) : Except EnvErr Nav2D :=
  if start.1 < 0 ∨ start.1 ≥ W then .error .illegalStart
  else if start.2 < 0 ∨ start.2 ≥ H then .error .illegalStart
  else
    let r1 := StateTable.getId hash StateTable.empty start
    let r2 := StateTable.getId hash r1.1 goal
    .ok { cfg := { W, H, obs, grid := fun x y => map (x + y * W), dirs, start, goal },
          tab := r2.1, startId := r1.2, goalId := r2.2 }

/-- `SetGoal` (environment_nav2D.cpp:1062-1083); `none` is the return value -1 -/
def setGoal (st : Nav2D) (x y : Int) : Nav2D × Option Nat :=
  if st.cfg.within x y then
    let r := st.getState (x, y)
    ({ r.1 with goalId := r.2, cfg := { r.1.cfg with goal := (x, y) } }, some r.2)
  else (st, none)

/-- `SetStart` (environment_nav2D.cpp:1091-1112) -/
def setStart (st : Nav2D) (x y : Int) : Nav2D × Option Nat :=
  if st.cfg.within x y then
    let r := st.getState (x, y)
    ({ r.1 with startId := r.2, cfg := { r.1.cfg with start := (x, y) } }, some r.2)
  else (st, none)

/-- `UpdateCost` (environment_nav2D.cpp:1114-1119) -/
def updateCost (st : Nav2D) (x y : Int) (v : Nat) : Except EnvErr Nav2D :=
  match st.cfg.cell x y with
  | .error e => .error e
  | .ok _ =>
    .ok { st with cfg := { st.cfg with grid := fun a b => if a = x ∧ b = y then v else st.cfg.grid a b } }

/-- the neighbours pushed for one changed cell (environment_nav2D.cpp:1148-1155, 1169-1174) -/
def changedNbrs (st : Nav2D) (x y : Int) : List Act → Nav2D × List Nat
  | [] => (st, [])
  | a :: as =>
    if x + a.dx < 0 ∨ x + a.dx ≥ st.cfg.W ∨ y + a.dy < 0 ∨ y + a.dy ≥ st.cfg.H then changedNbrs st x y as
    else
      let r := st.getState (x + a.dx, y + a.dy)
      let r2 := changedNbrs r.1 x y as
      (r2.1, r.2 :: r2.2)

/-- `GetPredsofChangedEdges` = `GetSuccsofChangedEdges` (environment_nav2D.cpp:1138-1176, identical text) -/
def changedEdges (st : Nav2D) : List (Int × Int) → Nav2D × List Nat
  | [] => (st, [])
  | (x, y) :: cs =>
    let r := st.getState (x, y)
    let r2 := r.1.changedNbrs x y r.1.cfg.acts
    let r3 := changedEdges r2.1 cs
    (r3.1, r.2 :: (r2.2 ++ r3.2))

/-- `EuclideanDistance` (environment_nav2D.cpp:537-542): `(int)(1000 * sqrt(sqdist))`, computed exactly:
the largest integer whose square is at most `1000000 * sqdist`. -/
def eucl (p q : Int × Int) : Nat :=
  Nat.sqrt (1000000 * ((p.1 - q.1) * (p.1 - q.1) + (p.2 - q.2) * (p.2 - q.2)).toNat)

/-- `GetFromToHeuristic` (environment_nav2D.cpp:716-735) -/
def fromToHeur (st : Nav2D) (a b : Nat) : Except EnvErr Nat :=
  match st.getCoord a, st.getCoord b with
  | .ok p, .ok q => .ok (eucl p q)
  | _, _ => .error .badId

/-- `GetGoalHeuristic` (environment_nav2D.cpp:737-751) -/
def goalHeur (st : Nav2D) (id : Nat) : Except EnvErr Nat := st.fromToHeur id st.goalId
/-- `GetStartHeuristic` (environment_nav2D.cpp:753-767) -/
def startHeur (st : Nav2D) (id : Nat) : Except EnvErr Nat := st.fromToHeur st.startId id

end Nav2D

/-- One call on the environment. -/
inductive NavOp where
  | getState (x y : Int)
  | getSuccs (id : Nat)
  | getPreds (id : Nat)
  | setStart (x y : Int)
  | setGoal (x y : Int)
  | updateCost (x y : Int) (v : Nat)
  | changedEdges (cells : List (Int × Int))

namespace Nav2D

/-- effect of a call; `none`: undefined behaviour -/
def step (st : Nav2D) : NavOp → Option Nav2D
  | .getState x y => some (st.getState (x, y)).1
  | .getSuccs id => match st.getSuccs id with | .ok r => some r.1 | .error _ => none
  | .getPreds id => match st.getPreds id with | .ok r => some r.1 | .error _ => none
  | .setStart x y => some (st.setStart x y).1
  | .setGoal x y => some (st.setGoal x y).1
  | .updateCost x y v => match st.updateCost x y v with | .ok r => some r | .error _ => none
  | .changedEdges cs => some (st.changedEdges cs).1

/-- a history of calls -/
def run (st : Nav2D) : List NavOp → Option Nav2D
  | [] => some st
  | op :: ops => match st.step op with
    | none => none
    | some st1 => run st1 ops

end Nav2D
end Sbpl
