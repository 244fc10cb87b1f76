import Verif.Model.Nav2DPlan
/-!
# The robot of the test program: plan, move one step, look around, plan again
(`planandnavigate2d`, src/test/main.cpp:792-1035, ARA* branch)

Simplifications: the planner is ARA* searching backward (`bforwardsearch = false`, line 846, case `PLANNER_TYPE_ARASTAR`);
the environment is `EnvironmentNAV2D` with a fixed numbering of the cells (`Model/Nav2DPlan.lean`); eps parameters and the
search mode are arbitrary; printing, statistics and the solution file are left out.  The clock is given as one list of budgets
per `replan` (as in `Model/ARA.lean`).
-/

namespace Sbpl

/-- the true map with the start and the goal of the robot (main.cpp:818-824) -/
structure NavTask where
  W : Int
  H : Int
  obs : Nat
  truth : Int → Int → Nat
  start : Int × Int
  goal : Int × Int

/-- the state of the program: planner, the map the robot has, and where it is (main.cpp:825, 848-885) -/
structure Robot where
  ara : ARA
  map : Int → Int → Nat
  pos : Int × Int

/-- how the main loop can be left by an exception -/
inductive NavErr where
  /-- `throw SBPL_Exception()` because replan returned 0 (main.cpp:949-951) -/
  | noPlan (bs : List Nat) (traces : List (List Nat))
  /-- an exception of the planner -/
  | planner (e : PErr)
  /-- "robot is commanded to move into an obstacle" (main.cpp:1010-1012) -/
  | intoObstacle
  /-- GetCoordFromState of an ID the environment did not give out: undefined behaviour -/
  | badId

namespace Robot

/-- the environment of the robot: its own map, 16-connected (main.cpp:813-815, 838-840) -/
def envCfg (T : NavTask) (map : Int → Int → Nat) : NavCfg := ⟨T.W, T.H, T.obs, map, 16, T.start, T.goal⟩

/-- body of the sensor loops for the cell `(x + dX, y + dY)` (main.cpp:902-924): `map[index] = truecost`, UpdateCost and
`bChanges = true` if the value differs -/
def senseCell (T : NavTask) (pos : Int × Int) (s : (Int → Int → Nat) × Bool) (d : Int × Int) : (Int → Int → Nat) × Bool :=
  let x := pos.1 + d.1
  let y := pos.2 + d.2
  if x < 0 ∨ x ≥ T.W ∨ y < 0 ∨ y ≥ T.H then s
  else if s.1 x y ≠ T.truth x y then (fun a b => if a = x ∧ b = y then T.truth x y else s.1 a b, true)
  else s

/-- the offsets of the sensor loops (main.cpp:900-901) -/
def offsets : List (Int × Int) :=
  [-2, -1, 0, 1, 2].flatMap (fun dx => [-2, -1, 0, 1, 2].map (fun dy => (dx, dy)))

/-- the sensor update (main.cpp:892-925): new map and `bChanges` -/
def sense (T : NavTask) (r : Robot) : (Int → Int → Nat) × Bool := offsets.foldl (senseCell T r.pos) (r.map, false)

/-- `costs_changed` if anything changed (main.cpp:929-932) -/
def look (T : NavTask) (num : Int × Int → Nat) (den : Nat → Option (Int × Int)) (r : Robot) : Robot :=
  let s := r.sense T
  { r with map := s.1, ara := if s.2 then r.ara.costsChanged (navPEnv (envCfg T s.1) num den) else r.ara }

/-- "move along the path" (main.cpp:1004-1030) -/
def move (T : NavTask) (den : Nat → Option (Int × Int)) (r : Robot) (path : List Nat) : Except NavErr Robot :=
  match path with
  | _ :: i :: _ =>
    match den i with
    | none => .error .badId
    | some q =>
      if T.truth q.1 q.2 ≥ T.obs then .error .intoObstacle
      else .ok { r with pos := q, ara := r.ara.setStart i }
  | _ => .ok r

/-- one pass of the main loop (main.cpp:890-1031) -/
def cycle (T : NavTask) (num : Int × Int → Nat) (den : Nat → Option (Int × Int)) (bs : List Nat) (r : Robot) :
    Except NavErr Robot :=
  let r1 := r.look T num den
  match r1.ara.replan bs with
  | .error e => .error (.planner e)
  | .ok (a, res) =>
    if res.found then move T den { r1 with ara := a } res.path
    else .error (.noPlan bs res.traces)

/-- how the program ended, or that it is still going -/
inductive Outcome where
  | arrived
  | going
  | stopped (e : NavErr)

/-- the main loop (main.cpp:888-1032) with one time limit per pass: the cells visited, in order, and the outcome -/
def run (T : NavTask) (num : Int × Int → Nat) (den : Nat → Option (Int × Int)) : List (List Nat) → Robot →
    List (Int × Int) × Outcome
  | [], r => ([r.pos], if r.pos = T.goal then .arrived else .going)
  | bs :: bss, r =>
    if r.pos = T.goal then ([r.pos], .arrived)
    else match cycle T num den bs r with
      | .error e => ([r.pos], .stopped e)
      | .ok r1 => let (l, o) := run T num den bss r1; (r.pos :: l, o)

/-- the program before the main loop (main.cpp:825, 838-885): an empty map, the planner constructed on it, start and goal set -/
def init (T : NavTask) (num : Int × Int → Nat) (den : Nat → Option (Int × Int)) (D initEps finalEps decEps : Nat)
    (first : Bool) : Robot where
  ara := ((ARA.init (navPEnv (envCfg T (fun _ _ => 0)) num den) false D initEps finalEps decEps first).setStart
    (num T.start)).setGoal (num T.goal)
  map := fun _ _ => 0
  pos := T.start

end Robot
end Sbpl
