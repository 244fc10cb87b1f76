import Verif.Model.Nav2D
import Verif.Model.CfgFile
import Verif.Model.XYTInit
/-!
# One `EnvironmentNAV2D` object through several calls of InitializeEnv

Modelled: the constructor, SetEnvParameter, both versions of InitializeEnv with what they leave in the object when they throw, the calls on the environment (`NavOp`), GetEnvParms, GetMapCost,
GetSuccs and GetPreds when the extent of the array `Grid2D` differs from EnvWidth_c, EnvHeight_c.
Simplifications: the environment is no longer modelled (`env = none`) after a file that could not be read, and after an exception in CreateNewHashEntry; allocations succeed.
-/

namespace Sbpl

/-- the environment inside the object: `EnvNAV2DCfg`, the tables, and the extent of the array that `Grid2D` points to -/
structure NavMem where
  nav : Nav2D
  aw : Int
  ah : Int

/-- an `EnvironmentNAV2D` object -/
structure NavObj where
  /-- `numofdirs`, `bInitialized` -/
  par : Nat × Bool
  /-- the size of `StateID2IndexMapping` -/
  mapped : Nat
  env : Option NavMem

namespace NavMem

/-- `Grid2D[x][y]`, undefined outside the array -/
def cell (m : NavMem) (x y : Int) : Except EnvErr Nat :=
  if 0 ≤ x ∧ x < m.aw ∧ 0 ≤ y ∧ y < m.ah then .ok (m.nav.cfg.grid x y) else .error .oob

/-- IsValidCell (environment_nav2D.cpp:482-486): the array is read if the cell is inside EnvWidth_c, EnvHeight_c -/
def valid (m : NavMem) (x y : Int) : Except EnvErr Bool :=
  if m.nav.cfg.within x y then (match m.cell x y with | .error e => .error e | .ok t => .ok (decide (t < m.nav.cfg.obs))) else .ok false

/-- the cost multiplier (environment_nav2D.cpp:894-909) -/
def costMult (m : NavMem) (x y : Int) (a : Act) (base : Nat) : Except EnvErr Nat :=
  if (x + a.dx ≠ x ∧ y + a.dy ≠ y) ∧ a.small = true then
    match m.cell x (y + a.dy) with
    | .error e => .error e
    | .ok v0 =>
      match m.cell (x + a.dx) y with
      | .error e => .error e
      | .ok v1 => .ok (max (max base v0) v1)
  else if a.small = false then
    match m.cell (x + a.i0.1) (y + a.i0.2) with
    | .error e => .error e
    | .ok v0 =>
      match m.cell (x + a.i1.1) (y + a.i1.2) with
      | .error e => .error e
      | .ok v1 => .ok (max (max base v0) v1)
  else .ok base

/-- the rest of one action of GetSuccs (environment_nav2D.cpp:892-923), after the test of the bounds -/
def succTail (m : NavMem) (x y : Int) (a : Act) : Except EnvErr (Option ((Int × Int) × Nat)) :=
  match m.cell (x + a.dx) (y + a.dy) with
  | .error e => .error e
  | .ok t =>
    match m.costMult x y a t with
    | .error e => .error e
    | .ok v => if v ≥ m.nav.cfg.obs then .ok none else .ok (some ((x + a.dx, y + a.dy), (v + 1) * a.dist))

/-- one action of GetSuccs (environment_nav2D.cpp:885-923) -/
def succAct (m : NavMem) (x y : Int) (a : Act) : Except EnvErr (Option ((Int × Int) × Nat)) :=
  if m.nav.cfg.testBounds x y then
    match m.valid (x + a.dx) (y + a.dy) with
    | .error e => .error e
    | .ok false => .ok none
    | .ok true => m.succTail x y a
  else m.succTail x y a

/-- GetSuccs (environment_nav2D.cpp:856-928) -/
def getSuccs (m : NavMem) (id : Nat) : Except EnvErr (Nav2D × List (Nat × Nat)) :=
  if id = m.nav.goalId then .ok (m.nav, [])
  else
    match m.nav.getCoord id with
    | .error e => .error e
    | .ok (x, y) => Nav2D.actLoop (m.succAct x y) m.nav.cfg.acts m.nav

/-- the rest of one action of GetPreds (environment_nav2D.cpp:966-997), after the test of the bounds; `t` is the cost of the target -/
def predTail (m : NavMem) (x y : Int) (t : Nat) (a : Act) : Except EnvErr (Option ((Int × Int) × Nat)) :=
  match m.costMult x y a t with
  | .error e => .error e
  | .ok v => if v ≥ m.nav.cfg.obs then .ok none else .ok (some ((x + a.dx, y + a.dy), (v + 1) * a.dist))

/-- one action of GetPreds (environment_nav2D.cpp:957-1005) -/
def predAct (m : NavMem) (x y : Int) (t : Nat) (a : Act) : Except EnvErr (Option ((Int × Int) × Nat)) :=
  if m.nav.cfg.testBounds x y then
    match m.valid (x + a.dx) (y + a.dy) with
    | .error e => .error e
    | .ok false => .ok none
    | .ok true => m.predTail x y t a
  else m.predTail x y t a

/-- GetPreds (environment_nav2D.cpp:930-1010) -/
def getPreds (m : NavMem) (id : Nat) : Except EnvErr (Nav2D × List (Nat × Nat)) :=
  match m.nav.getCoord id with
  | .error e => .error e
  | .ok (x, y) =>
    match m.cell x y with
    | .error e => .error e
    | .ok t =>
      if t ≥ m.nav.cfg.obs then .ok (m.nav, [])
      else Nav2D.actLoop (m.predAct x y t) m.nav.cfg.acts m.nav

/-- GetMapCost (environment_nav2D.cpp:1183-1186) -/
def getMapCost (m : NavMem) (x y : Int) : Except EnvErr Nat := m.cell x y

end NavMem

/-- the arguments of InitializeEnv (environment_nav2D.cpp:678-679); `map i` is `mapdata[i]`, 0 if mapdata is NULL (131-138) -/
structure NavArgs where
  W : Int
  H : Int
  map : Int → Nat
  start : Int × Int
  goal : Int × Int
  obs : Nat

/-- how a call of InitializeEnv fails -/
inductive NavFail where
  /-- the start is outside the map -/
  | start
  /-- CreateNewHashEntry throws: "last state has incorrect stateID" -/
  | stateId
  /-- the file cannot be opened -/
  | noFile
  /-- in the file -/
  | file (e : FileErr)
deriving DecidableEq, Repr

namespace NavObj

/-- the constructor (environment_nav2D.cpp:51-57) -/
def new : NavObj := ⟨(8, false), 0, none⟩

/-- InitGeneral (environment_nav2D.cpp:693-705) on a configuration with a new array: InitializeEnvironment (511-535) makes a new table of coordinates and clears StateID2CoordTable, but
CreateNewHashEntry (440-480) appends to `StateID2IndexMapping`, which is not cleared, and throws unless the new entry is the last one. -/
def general (o : NavObj) (c : NavCfg) : NavObj × Except NavFail Unit :=
  if o.mapped ≠ 0 then ({ o with mapped := o.mapped + 1, env := none }, .error .stateId)
  else
    let r1 := StateTable.getId Nav2D.hash StateTable.empty c.start
    let r2 := StateTable.getId Nav2D.hash r1.1 c.goal
    ({ par := (o.par.1, true), mapped := r2.1.table.length, env := some ⟨{ cfg := c, tab := r2.1, startId := r1.2, goalId := r2.2 }, c.W, c.H⟩ }, .ok ())

/-- InitializeEnv with arguments (environment_nav2D.cpp:678-691): the threshold is stored first (684), SetConfiguration (106-146) stores size and start and throws if the start is outside, before the goal
is stored and an array is allocated. -/
def initArgs (o : NavObj) (a : NavArgs) : NavObj × Except NavFail Unit :=
  if a.start.1 < 0 ∨ a.start.1 ≥ a.W ∨ a.start.2 < 0 ∨ a.start.2 ≥ a.H then
    ({ o with env := o.env.map fun m => { m with nav := { m.nav with cfg := { m.nav.cfg with W := a.W, H := a.H, obs := a.obs, start := a.start } } } }, .error .start)
  else general o { W := a.W, H := a.H, obs := a.obs, grid := fun x y => a.map (x + y * a.W), dirs := o.par.1, start := a.start, goal := a.goal }

/-- InitializeEnv with a file (environment_nav2D.cpp:656-670) -/
def initFile (o : NavObj) : Option Scan.Text → NavObj × Except NavFail Unit
  | none => (o, .error .noFile)
  | some t =>
    match Scan.readNav2D o.par.1 t with
    | .error e => ({ o with env := none }, .error (.file e))
    | .ok (c, _) => general o c

/-- a call on the object -/
inductive Op where
  | setParam (name : String) (v : Int)
  | initArgs (a : NavArgs)
  | initFile (t : Option Scan.Text)
  /-- calls on the environment, see `NavOp` -/
  | use (ops : List NavOp)

/-- effect of a call; calls on an object that is not initialised, and calls that change the environment while the array does not have the size in the configuration, are not modelled.  Every state
that is created gets an entry in StateID2IndexMapping (468). -/
def step (o : NavObj) : Op → NavObj
  | .setParam n v => { o with par := (Nav2DInit.setParam o.par n v).1 }
  | .initArgs a => (initArgs o a).1
  | .initFile t => (initFile o t).1
  | .use ops =>
    match o.env with
    | none => o
    | some m =>
      if m.aw = m.nav.cfg.W ∧ m.ah = m.nav.cfg.H then
        match m.nav.run ops with
        | none => { o with env := none }
        | some st => { o with env := some { m with nav := st }, mapped := max o.mapped st.tab.table.length }
      else { o with env := none }

/-- the object after a list of calls -/
def run (o : NavObj) (ops : List Op) : NavObj := ops.foldl step o

end NavObj

namespace Nav2D

/-- GetEnvParms (environment_nav2D.cpp:1188-1200), with the costs that GetMapCost (1183-1186) reports for the cells of the map, in the order in which InitializeEnv expects them -/
def getParms (st : Nav2D) : NavArgs :=
  { W := st.cfg.W, H := st.cfg.H, map := fun i => st.cfg.grid (i % st.cfg.W) (i / st.cfg.W), start := st.cfg.start, goal := st.cfg.goal, obs := st.cfg.obs }

end Nav2D
end Sbpl
