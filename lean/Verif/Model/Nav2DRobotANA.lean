import Verif.Model.Nav2DRobot
import Verif.Model.ANA
/-!
# The robot of the test program with ANA* (`planandnavigate2d`, src/test/main.cpp:792-1035, case `PLANNER_TYPE_ANASTAR`)

Same loop as in `Model/Nav2DRobot.lean`.  The only difference: after a change of the map only `ARAPlanner` and `ADPlanner` are
told (main.cpp:929-941, the two `dynamic_cast`s); for `anaPlanner` nothing happens, the environment it searches just has
other costs from then on.
-/

namespace Sbpl

/-- the state of the program with ANA* -/
structure RobotANA where
  ana : ANA
  map : Int → Int → Nat
  pos : Int × Int

namespace RobotANA
open Robot

/-- one pass of the main loop with ANA* (main.cpp:890-1031); `UpdateCost` changes the environment of the planner (line 917) -/
def cycle (T : NavTask) (num : Int × Int → Nat) (den : Nat → Option (Int × Int)) (bs : List Nat) (r : RobotANA) :
    Except NavErr RobotANA :=
  let s := offsets.foldl (senseCell T r.pos) (r.map, false)
  match ({ r.ana with env := navPEnv (envCfg T s.1) num den } : ANA).replan bs with
  | .error e => .error (.planner e)
  | .ok (a, res) =>
    if res.found then
      match res.path with
      | _ :: i :: _ =>
        match den i with
        | none => .error .badId
        | some q =>
          if T.truth q.1 q.2 ≥ T.obs then .error .intoObstacle
          else .ok ⟨a.setStart i, s.1, q⟩
      | _ => .ok ⟨a, s.1, r.pos⟩
    else .error (.noPlan bs res.traces)

/-- the main loop (main.cpp:888-1032): the cells visited, in order, and the outcome -/
def run (T : NavTask) (num : Int × Int → Nat) (den : Nat → Option (Int × Int)) : List (List Nat) → RobotANA →
    List (Int × Int) × Outcome
  | [], r => ([r.pos], if r.pos = T.goal then .arrived else .going)
  | bs :: bss, r =>
    if r.pos = T.goal then ([r.pos], .arrived)
    else match cycle T num den bs r with
      | .error e => ([r.pos], .stopped e)
      | .ok r1 => let (l, o) := run T num den bss r1; (r.pos :: l, o)

/-- the program before the main loop (main.cpp:825, 838-885), backward search -/
def init (T : NavTask) (num : Int × Int → Nat) (den : Nat → Option (Int × Int)) : RobotANA where
  ana := ((ANA.init (navPEnv (envCfg T (fun _ _ => 0)) num den) false).setStart (num T.start)).setGoal (num T.goal)
  map := fun _ _ => 0
  pos := T.start

end RobotANA
end Sbpl
