import Verif.Model.Utils
import Verif.Model.StateTable
/-!
# `EnvironmentROBARM` (src/discrete_space_information/environment_robarm.cpp), a planar robot arm

`double` is an ordered field `K` with a floor function (ℚ in the examples, ℝ for statements about cos and sin), without rounding.  `cos(angle)` and `sin(angle)` are
tables `cs k`, `sn k` for the angle `k * angledelta`, arbitrary unless a theorem says otherwise.  `int` is `Int`/`Nat` without overflow, `short unsigned int` is `Nat`
modulo 65536 where a value is converted.  The number of links (NUMOFLINKS, a compile-time constant 6) is the length of `links`.  An out-of-bounds access of an array and
the use of an uninitialised variable are errors.  Not modelled: reading the configuration file, printing, the `pTestedCells` variant of IsValidCoord, GetRandomState.
The compile-time switches have their values in the code: ENDEFF_CHECK_ONLY 0, UNIFORM_COST 1, USE_HEUR 1, DEBUG 0.
-/

namespace Sbpl
namespace RobArm

/-- exceptions and undefined behaviour -/
inductive Err where
  | outOfBounds | uninitialised | noTermination | incorrectHeuristic | badId | undefinedFn
deriving DecidableEq, Repr

/-- conversion of an `int` to `short unsigned int` -/
def u16 (z : Int) : Nat := (z % 65536).toNat

section
variable {K : Type} [Field K] [LinearOrder K] [IsStrictOrderedRing K] [FloorRing K]

/-- C's conversion of a double to int -/
def ctrunc (x : K) : Int := if 0 ≤ x then ⌊x⌋ else ⌈x⌉

/-- one link: LinkLength_m, anglevals, angledelta, the start angle in radians, and the cosine and sine of `k * angledelta` (environment_robarm.h:69-86) -/
structure Link (K : Type) where
  len : K
  vals : Nat
  delta : K
  startAngle : K
  cs : Nat → K
  sn : Nat → K

/-- `EnvROBARMConfig_t` (environment_robarm.h:67-86).  `grid` is only meaningful inside the map. -/
structure Cfg (K : Type) where
  W : Nat
  H : Nat
  Wm : K
  Hm : K
  cell : K
  baseX : Int
  gx : Nat
  gy : Nat
  grid : Nat → Nat → Int
  links : List (Link K)

/-- one coordinate of ContXY2Cell (environment_robarm.cpp:790-800) -/
def toCell (x cell : K) (n : Nat) : Nat :=
  let p := if x < 0 then 0 else u16 (ctrunc (x / cell))
  if p ≥ n then u16 ((n : Int) - 1) else p

/-- `ContXY2Cell` (environment_robarm.cpp:790-800) -/
def Cfg.xy2cell (c : Cfg K) (p : K × K) : Nat × Nat := (toCell p.1 c.cell c.W, toCell p.2 c.cell c.H)

/-- `Cell2ContXY(BaseX_c, EnvHeight_c - 1, ...)` (environment_robarm.cpp:784-788, 810, 908) -/
def Cfg.base (c : Cfg K) : K × K := ((c.baseX : K) * c.cell + c.cell * (1 / 2), ((c.H : K) - 1) * c.cell + c.cell * (1 / 2))

/-- the end of a link that begins at `p` (environment_robarm.cpp:814-815, 913-914) -/
def Link.tip (l : Link K) (k : Nat) (p : K × K) : K × K := (p.1 + l.len * l.cs k, p.2 - l.len * l.sn k)

/-- the end effector of a chain of links that begins at `p` (environment_robarm.cpp:813-816) -/
def endPos : List (Link K) → List Nat → K × K → K × K
  | l :: ls, k :: ks, p => endPos ls ks (l.tip k p)
  | _, _, p => p

/-- `ComputeContAngles` and `ComputeEndEffectorPos` (environment_robarm.cpp:739-746, 803-824): the end effector's cell -/
def Cfg.endCell (c : Cfg K) (k : List Nat) : Nat × Nat := c.xy2cell (endPos c.links k c.base)

/-- a read `Grid2D[x][y]` (allocated with EnvWidth_c rows of EnvHeight_c entries, environment_robarm.cpp:698-701) -/
def Cfg.read (c : Cfg K) (x y : Int) : Except Err Int :=
  if 0 ≤ x ∧ x < c.W ∧ 0 ≤ y ∧ y < c.H then .ok (c.grid x.toNat y.toNat) else .error .outOfBounds

/-- the loop of IsValidLineSegment (environment_robarm.cpp:848-866), with a bound on its iterations -/
def Cfg.segLoop (c : Cfg K) : Nat → Utils.Bres → Except Err Bool
  | 0, _ => .error .noTermination
  | n + 1, b =>
    match c.read (Utils.curPoint b).1 (Utils.curPoint b).2 with
    | .error e => .error e
    | .ok v =>
      if v = 1 then .ok false
      else
        match Utils.nextPoint b with
        | none => .ok true
        | some b' => c.segLoop n b'

/-- outside the environment (environment_robarm.cpp:838-842) -/
def Cfg.outside (c : Cfg K) (p : K × K) : Bool := decide (p.1 < 0) || decide (p.1 ≥ c.Wm) || decide (p.2 < 0) || decide (p.2 ≥ c.Hm)

/-- `IsValidLineSegment` (environment_robarm.cpp:828-869) -/
def Cfg.validSegment (c : Cfg K) (p q : K × K) : Except Err Bool :=
  if c.outside p = true ∨ c.outside q = true then .ok false
  else
    let a := c.xy2cell p
    let b := c.xy2cell q
    c.segLoop (c.W + c.H + 1) (Utils.getParams a.1 a.2 b.1 b.2)

/-- the loop over the links (environment_robarm.cpp:909-923) -/
def Cfg.validFrom (c : Cfg K) : List (Link K) → List Nat → K × K → Except Err Bool
  | l :: ls, k :: ks, p =>
    match c.validSegment p (l.tip k p) with
    | .error e => .error e
    | .ok false => .ok false
    | .ok true => c.validFrom ls ks (l.tip k p)
  | _, _, _ => .ok true

/-- `IsValidCoord` (environment_robarm.cpp:871-928) -/
def Cfg.isValid (c : Cfg K) (k : List Nat) : Except Err Bool := c.validFrom c.links k c.base

/-- `cost` (environment_robarm.cpp:930-953); `||` evaluates its second operand only if needed -/
def Cfg.cost (c : Cfg K) (a b : List Nat) : Except Err Nat :=
  match c.isValid a with
  | .error e => .error e
  | .ok false => .ok INFINITECOST
  | .ok true =>
    match c.isValid b with
    | .error e => .error e
    | .ok false => .ok INFINITECOST
    | .ok true => .ok 1

/-- `DiscretizeAngles` for one link, given the arcsine of half a cell over the length (environment_robarm.cpp:727-736); `pi` is PI_CONST -/
def discretize (pi asinv : K) : K × Int := (2 * asinv, ctrunc (2 * pi / (2 * asinv) + 99999999 / 100000000))

/-- one coordinate of `ComputeCoord` (environment_robarm.cpp:748-756) -/
def coordOf (angle delta : K) (vals : Nat) : Nat :=
  let k := u16 (ctrunc ((angle + delta * (1 / 2)) / delta))
  if k = vals then 0 else k

/-- the start coordinates (environment_robarm.cpp:979-983) -/
def Cfg.startCoord (c : Cfg K) : List Nat := c.links.map fun l => coordOf l.startAngle l.delta l.vals

/-! ## State IDs -/

/-- `EnvROBARMHashEntry_t` (environment_robarm.h:88-95) -/
structure Entry where
  id : Nat
  coord : List Nat
  ex : Nat
  ey : Nat
deriving DecidableEq, Repr

/-- the members of `EnvironmentROBARM_t` used after initialisation (environment_robarm.h:97-112): StateID2CoordTable, Coord2StateIDHashTable, Heur; startHashEntry and
goalHashEntry have IDs 0 and 1 (see `init`) -/
structure Env (K : Type) where
  cfg : Cfg K
  table : List Entry
  bins : Nat → List Entry
  heur : Nat → Nat → Nat

/-- `GETHASHBIN` (environment_robarm.cpp:75-84): the sum is a 32-bit `int`, HashTableSize is 32 * 1024 -/
def hashBin (k : List Nat) : Nat :=
  ((inthash (((List.range k.length).zip k).foldl (fun v p => v + (inthash (UInt32.ofNat p.2) <<< UInt32.ofNat p.1)) 0)).toNat) % 32768

/-- `GetHashEntry` with bIsGoal false (environment_robarm.cpp:119-145): the first match in the bin -/
def Env.find (e : Env K) (k : List Nat) : Option Entry := (e.bins (hashBin k)).find? (fun x => decide (x.coord = k))

/-- `CreateNewHashEntry` (environment_robarm.cpp:148-189) -/
def Env.create (e : Env K) (k : List Nat) (ee : Nat × Nat) : Env K × Entry :=
  let x : Entry := ⟨e.table.length, k, ee.1, ee.2⟩
  ({ e with table := e.table ++ [x], bins := upd e.bins (hashBin k) (e.bins (hashBin k) ++ [x]) }, x)

/-- ID of goalHashEntry (set in `init`) -/
def goalId : Nat := 1
/-- ID of startHashEntry (set in `init`) -/
def startId : Nat := 0

/-- new value of a joint (environment_robarm.cpp:1241-1249): `up` is inc = 1 -/
def turn (vals k : Nat) (up : Bool) : Nat := if up then (k + 1) % vals else if k = 0 then vals - 1 else k - 1

/-- the successor coordinates in the order of the loops (environment_robarm.cpp:1238-1249): joint 0 down, joint 0 up, joint 1 down, ... -/
def moves : List (Link K) → List Nat → List (List Nat)
  | l :: ls, k :: ks => (turn l.vals k false :: ks) :: (turn l.vals k true :: ks) :: (moves ls ks).map (k :: ·)
  | _, _ => []

/-- the goal test is made (environment_robarm.cpp:1258-1259) -/
def Cfg.nearGoal (c : Cfg K) (s : Entry) : Bool := decide (((s.ex : Int) - c.gx).natAbs < 3) || decide (((s.ey : Int) - c.gy).natAbs < 3)

/-- the successor's ID (environment_robarm.cpp:1252-1280): entry of the goal, existing entry or new entry -/
def Env.succId (e : Env K) (s : Entry) (k : List Nat) : Env K × Nat :=
  if e.cfg.nearGoal s = true ∧ e.cfg.endCell k = (e.cfg.gx, e.cfg.gy) then (e, goalId)
  else
    match e.find k with
    | some x => (e, x.id)
    | none => let r := e.create k (e.cfg.endCell k); (r.1, r.2.id)

/-- the loop of GetSuccs over the candidates (environment_robarm.cpp:1238-1287) -/
def Env.succLoop (s : Entry) : List (List Nat) → Env K → List (Nat × Nat) → Except Err (Env K × List (Nat × Nat))
  | [], e, acc => .ok (e, acc)
  | k :: ks, e, acc =>
    match e.cfg.isValid k with
    | .error x => .error x
    | .ok false => Env.succLoop s ks e acc
    | .ok true =>
      let r := e.succId s k
      match e.cfg.cost s.coord k with
      | .error x => .error x
      | .ok n => Env.succLoop s ks r.1 (acc ++ [(r.2, n)])

/-- `GetSuccs` (environment_robarm.cpp:1217-1288) -/
def Env.getSuccs (e : Env K) (id : Nat) : Except Err (Env K × List (Nat × Nat)) :=
  if id = goalId then .ok (e, [])
  else
    match e.table[id]? with
    | none => .error .badId
    | some s => Env.succLoop s (moves e.cfg.links s.coord) e []

/-- `GetPreds` (environment_robarm.cpp:1290-1293) -/
def Env.getPreds (_ : Env K) (_ : Nat) : Except Err (Env K × List (Nat × Nat)) := .error .undefinedFn

/-- `GetStartHeuristic` (environment_robarm.cpp:1101-1118) -/
def Env.startHeuristic (_ : Env K) (_ : Nat) : Except Err Nat := .error .undefinedFn

/-- `XYTO2DIND` (environment_robarm.cpp:51) -/
def ind (W : Nat) (p : Nat × Nat) : Nat := p.1 + p.2 * W

/-- `GetFromToHeuristic` (environment_robarm.cpp:1048-1084) -/
def Env.fromToHeuristic (e : Env K) (a b : Nat) : Except Err Nat :=
  match e.table[a]?, e.table[b]? with
  | some x, some y => .ok (e.heur (ind e.cfg.W (y.ex, y.ey)) (ind e.cfg.W (x.ex, x.ey)))
  | _, _ => .error .badId

/-- `GetGoalHeuristic` (environment_robarm.cpp:1086-1099) -/
def Env.goalHeuristic (e : Env K) (a : Nat) : Except Err Nat := e.fromToHeuristic a goalId

/-- `GetEdgeCost` (environment_robarm.cpp:1428-1444) -/
def Env.edgeCost (e : Env K) (a b : Nat) : Except Err Nat :=
  match e.table[a]?, e.table[b]? with
  | some x, some y => e.cfg.cost x.coord y.coord
  | _, _ => .error .badId

/-- `AreEquivalent` (environment_robarm.cpp:1537-1543) -/
def Env.areEquivalent (e : Env K) (a b : Nat) : Except Err Bool :=
  match e.table[a]?, e.table[b]? with
  | some x, some y => .ok (decide (x.ex = y.ex) && decide (x.ey = y.ey))
  | _, _ => .error .badId

/-! ## The 2D heuristics -/

/-- a write to a field of `statespace[x][y]` -/
def set2 {α : Type} (f : Nat × Nat → α) (p : Nat × Nat) (v : α) : Nat × Nat → α := fun q => if q = p then v else f q

/-- loop order of the nested loops over x and y -/
def cells (w h : Nat) : List (Nat × Nat) := (List.range w).flatMap fun x => (List.range h).map fun y => (x, y)

/-- the fields x, y of the cells (`none`: uninitialised): `Create2DStateSpace` (environment_robarm.cpp:345-357) writes `[x][y]` for x and y below EnvWidth_c, in an
array of EnvHeight_c columns -/
def createLoop (H : Nat) : List (Nat × Nat) → (Nat × Nat → Option (Nat × Nat)) → Except Err (Nat × Nat → Option (Nat × Nat))
  | [], f => .ok f
  | p :: ps, f => if p.2 < H then createLoop H ps (set2 f p (some (u16 p.1, u16 p.2))) else .error .outOfBounds

def createSpace (W H : Nat) : Except Err (Nat × Nat → Option (Nat × Nat)) := createLoop H (cells W W) (fun _ => none)

/-- the data of a 2D search: g, iterationclosed, HeurGrid, Queue; `xy` are the cells' own coordinates -/
structure S2 where
  xy : Nat × Nat → Option (Nat × Nat)
  g : Nat × Nat → Nat
  closed : Nat × Nat → Bool
  heur : Nat → Nat
  queue : List (Nat × Nat)

/-- dx, dy (environment_robarm.cpp:56-57 of the tables of directions) -/
def dirs : List (Int × Int) := [(1, 1), (1, 0), (1, -1), (0, 1), (0, -1), (-1, -1), (-1, 0), (-1, 1)]

/-- body of the loop over the neighbours (environment_robarm.cpp:321-341); `p` is the expanded cell, `at` its coordinates -/
def Cfg.visit (c : Cfg K) (p xy : Nat × Nat) (s : S2) (d : Int × Int) : Except Err S2 :=
  let nx := (xy.1 : Int) + d.1
  let ny := (xy.2 : Int) + d.2
  if 0 > nx ∨ nx ≥ c.W ∨ 0 > ny ∨ ny ≥ c.H then .ok s
  else if c.grid nx.toNat ny.toNat = 1 then .ok s
  else
    let q := (nx.toNat, ny.toNat)
    if s.g q ≠ INFINITECOST ∧ s.g q > s.g p + 1 then .error .incorrectHeuristic
    else if s.closed q = false ∧ s.g q = INFINITECOST then
      .ok { s with queue := s.queue ++ [q], g := set2 s.g q (s.g p + 1) }
    else .ok s

/-- the loop over the directions -/
def Cfg.visitAll (c : Cfg K) (p xy : Nat × Nat) : List (Int × Int) → S2 → Except Err S2
  | [], s => .ok s
  | d :: ds, s =>
    match c.visit p xy s d with
    | .error e => .error e
    | .ok s1 => c.visitAll p xy ds s1

/-- the while loop of Search2DwithQueue (environment_robarm.cpp:306-342), with a bound on its iterations -/
def Cfg.searchLoop (c : Cfg K) : Nat → S2 → Except Err S2
  | 0, s => if s.queue = [] then .ok s else .error .noTermination
  | n + 1, s =>
    match s.queue with
    | [] => .ok s
    | p :: qs =>
      if s.closed p = true then c.searchLoop n { s with queue := qs }
      else
        match s.xy p with
        | none => .error .uninitialised
        | some xy =>
          match c.visitAll p xy dirs { s with queue := qs, closed := set2 s.closed p true, heur := upd s.heur (ind c.W xy) (s.g p) } with
          | .error e => .error e
          | .ok s1 => c.searchLoop n s1

/-- `Search2DwithQueue` (environment_robarm.cpp:285-343): from the cell `o`, on a used state space -/
def Cfg.search2D (c : Cfg K) (s : S2) (o : Nat × Nat) : Except Err S2 :=
  let s1 : S2 := (cells c.W c.H).foldl (fun s p =>
    { s with heur := upd s.heur (ind c.W p) INFINITECOST, g := set2 s.g p INFINITECOST, closed := set2 s.closed p false }) { s with queue := [] }
  c.searchLoop (c.W * c.H) { s1 with g := set2 s1.g o 0, queue := [o] }

/-- the loops of ComputeHeuristicValues (environment_robarm.cpp:386-394) -/
def Cfg.heurLoop (c : Cfg K) : List (Nat × Nat) → S2 → (Nat → Nat → Nat) → Except Err (Nat → Nat → Nat)
  | [], _, h => .ok h
  | o :: os, s, h =>
    match c.search2D { s with heur := h (ind c.W o) } o with
    | .error e => .error e
    | .ok s1 => c.heurLoop os s1 (upd h (ind c.W o) s1.heur)

/-- `ComputeHeuristicValues` (environment_robarm.cpp:370-399); the arrays are uninitialised before (`junk`) -/
def Cfg.computeHeur (c : Cfg K) (junk : Nat → Nat → Nat) : Except Err (Nat → Nat → Nat) :=
  match createSpace c.W c.H with
  | .error e => .error e
  | .ok xy => c.heurLoop (cells c.W c.H) ⟨xy, fun _ => 0, fun _ => false, fun _ => 0, []⟩ junk

/-! ## Initialisation -/

/-- `InitializeEnvironment` (environment_robarm.cpp:963-1015), without heuristics: `none` if it returns false -/
def Cfg.initTables (c : Cfg K) : Except Err (Option (Env K)) :=
  let e0 : Env K := ⟨c, [], fun _ => [], fun _ _ => 0⟩
  let e1 := (e0.create c.startCoord (c.endCell c.startCoord)).1
  let e2 := (e1.create (c.links.map fun _ => 0) (c.gx, c.gy)).1
  match c.isValid c.startCoord with
  | .error e => .error e
  | .ok v => if v = false ∨ c.gx ≥ c.W ∨ c.gy ≥ c.H then .ok none else .ok (some e2)

/-- `InitializeEnv` after the file was read (environment_robarm.cpp:1028-1036) -/
def Cfg.init (c : Cfg K) (junk : Nat → Nat → Nat) : Except Err (Option (Env K)) :=
  match c.initTables with
  | .error e => .error e
  | .ok none => .ok none
  | .ok (some e) =>
    match c.computeHeur junk with
    | .error x => .error x
    | .ok h => .ok (some { e with heur := h })

/-- a call of the interface by a planner; the answers are irrelevant for the tables -/
def Env.expand (e : Env K) : List Nat → Except Err (Env K)
  | [] => .ok e
  | i :: is =>
    match e.getSuccs i with
    | .error x => .error x
    | .ok r => Env.expand r.1 is

end
end RobArm
end Sbpl
