import Verif.Spec.PlannerTable
import Verif.Model.Basic

/-!
# The table `StateID2IndexMapping` and the planners' search records

Models `DiscreteSpaceInformation::StateID2IndexMapping`
(src/include/sbpl/discrete_space_information/environment.h:50-65), the `GetState` / `CreateState`
functions of all planners, their destructors and
`force_planning_from_scratch_and_free_memory`, as far as the association between environment states
and search records is concerned.

Every planner but Lazy ARA* keeps its records in an array and writes the index into the
environment's table; all of them use slot 0 of the table (src/include/sbpl/planners/planner.h:39-53),
R* additionally slot 1 for its local searches.

Simplifications: a record is its serial number (identity of the allocated object) and its state ID;
its other fields are the subject of the planners' own models.  Reading outside an array or using a
deleted planner gives the outcome `ub`, a failed `assert` gives `abort` (assertions enabled); both
leave the world as it was.  The code is modelled with `DEBUG` = 0 (src/include/sbpl/config.h:53).
-/

namespace Sbpl.Tab

open TabSpec

/-- `MAXSTATESPACESIZE` (src/include/sbpl/utils/mdp.h:41). -/
def maxStates : Nat := 20000000

/-- A planner object: `arr false` is `searchMDP.StateArray` (`m_search_states` for MHA*), `arr true`
is R*'s `pLSearchStateSpace->MDP.StateArray`; `own` is Lazy ARA*'s vector `states`, indexed by ID. -/
structure Pl where
  kind : Kind
  arr : Bool → List Obj
  own : List (Option Obj)

/-- The environment's table and the planners.  `tab id slot = none` models the entry -1. -/
structure World where
  ids : Nat
  tab : Nat → Bool → Option Nat
  pl : Nat → Option Pl
  next : Nat

/-- A new environment, no planners. -/
def World.init : World := ⟨0, fun _ _ => none, fun _ => none, 0⟩

/-- The environment makes a new state: a new table entry filled with -1
(e.g. src/discrete_space_information/environment_nav2D.cpp:466-471). -/
def World.newState (w : World) : World :=
  { w with ids := w.ids + 1, tab := put w.tab w.ids (fun _ => none) }

/-- The constructors: no records yet (e.g. src/planners/araplanner.cpp:44-83 with
`CreateSearchStateSpace`, 907-935).  They do not look at the table. -/
def World.create (w : World) (h : Nat) (k : Kind) : World :=
  { w with pl := put w.pl h (some ⟨k, fun _ => [], []⟩) }

/-- `CreateState` (src/planners/araplanner.cpp:106-135 and the same code in the other planners,
rstarplanner.cpp:177-206 for the local search, mhaplanner.cpp:432-446): append the new record,
remember its index in the table. -/
def World.createState (w : World) (h : Nat) (p : Pl) (loc : Bool) (id : Nat) : World :=
  { w with pl := put w.pl h (some { p with arr := put p.arr loc (p.arr loc ++ [⟨w.next, id⟩]) })
           tab := put w.tab id (put (w.tab id) loc (some (p.arr loc).length))
           next := w.next + 1 }

/-- `GetState` of the planners built on `CMDP`: src/planners/araplanner.cpp:137-150,
ANAplanner.cpp:103-114, adplanner.cpp:135-146, viplanner.cpp:85-96, rstarplanner.cpp:140-154 and
208-219 (local search); the bound on the number of states is in `CMDP::AddState`
(src/utils/mdp.cpp:268-287). -/
def World.getMDP (w : World) (h : Nat) (p : Pl) (loc : Bool) (id : Int) : World × Out :=
  if (w.ids : Int) ≤ id then (w, .invalid)
  else if id < 0 then (w, .ub)
  else
    match w.tab id.toNat loc with
    | none =>
      if maxStates < (p.arr loc).length + 1 then (w, .tooMany)
      else (w.createState h p loc id.toNat, .record ⟨w.next, id.toNat⟩)
    | some i =>
      match (p.arr loc)[i]? with
      | none => (w, .ub)
      | some o => (w, .record o)

/-- `MHAPlanner::get_state` (src/planners/mhaplanner.cpp:428-452): an assertion instead of the
exception, no bound on the number of states. -/
def World.getMHA (w : World) (h : Nat) (p : Pl) (loc : Bool) (id : Int) : World × Out :=
  if id < 0 ∨ (w.ids : Int) ≤ id then (w, .abort)
  else
    match w.tab id.toNat loc with
    | none => (w.createState h p loc id.toNat, .record ⟨w.next, id.toNat⟩)
    | some i =>
      match (p.arr loc)[i]? with
      | none => (w, .ub)
      | some o => (w, .record o)

/-- The growth loop of Lazy ARA*'s `GetState` (src/planners/lazyARA.cpp:70-74). -/
def grow (v : List (Option Obj)) (id : Nat) : List (Option Obj) :=
  v ++ List.replicate (id + 1 - v.length) none

/-- `LazyARAPlanner::GetState` (src/planners/lazyARA.cpp:67-80): a vector of its own. -/
def World.getLazy (w : World) (h : Nat) (p : Pl) (id : Int) : World × Out :=
  if id < 0 then (w, .ub)
  else
    let v := grow p.own id.toNat
    match v[id.toNat]? with
    | some (some o) => ({ w with pl := put w.pl h (some { p with own := v }) }, .record o)
    | _ =>
      ({ w with pl := put w.pl h (some { p with own := v.set id.toNat (some ⟨w.next, id.toNat⟩) })
                next := w.next + 1 },
       .record ⟨w.next, id.toNat⟩)

/-- A request for a record. -/
def World.get (w : World) (h : Nat) (loc : Bool) (id : Int) : World × Out :=
  match w.pl h with
  | none => (w, .ub)
  | some p =>
    match p.kind with
    | .lzy => w.getLazy h p id
    | .mha => w.getMHA h p loc id
    | _ => w.getMDP h p loc id

/-- AD*'s test whether a state has been visited, src/planners/adplanner.cpp:301 and 1251: the table
entry is read without a bounds check. -/
def World.peek (w : World) (h : Nat) (id : Int) : World × Out :=
  match w.pl h with
  | none => (w, .ub)
  | some _ =>
    if id < 0 ∨ (w.ids : Int) ≤ id then (w, .ub)
    else (w, .known (w.tab id.toNat false).isSome)

/-- Write -1 into slot `loc` of the entries of the given records. -/
def unmap (tab : Nat → Bool → Option Nat) (loc : Bool) : List Obj → Nat → Bool → Option Nat
  | [] => tab
  | o :: os => unmap (put tab o.id (put (tab o.id) loc none)) loc os

/-- The destructors.  `~MHAPlanner` unmaps its states (src/planners/mhaplanner.cpp:89-94 and
454-471); the other destructors (araplanner.cpp:85-93, adplanner.cpp:88-96, ANAplanner.cpp:49-57,
rstarplanner.cpp:88-96, viplanner.cpp:42-53, lazyARA.cpp:49-65) leave the table alone. -/
def World.destroy (w : World) (h : Nat) : World × Out :=
  match w.pl h with
  | none => (w, .ub)
  | some p =>
    match p.kind with
    | .mha => ({ w with pl := put w.pl h none, tab := unmap w.tab false (p.arr false) }, .nothing)
    | _ => ({ w with pl := put w.pl h none }, .nothing)

/-- `RSTARPlanner::DestroyLocalSearchMemory` (src/planners/rstarplanner.cpp:386-408). -/
def World.dropLocal (w : World) (h : Nat) : World × Out :=
  match w.pl h with
  | none => (w, .ub)
  | some p =>
    ({ w with pl := put w.pl h (some { p with arr := put p.arr true [] })
              tab := unmap w.tab true (p.arr true) }, .nothing)

/-- `force_planning_from_scratch_and_free_memory`: ARA* and AD* delete their states and write -1
into all entries of the table (src/planners/araplanner.cpp:1154-1181, adplanner.cpp:1412-1437);
Lazy ARA* empties its vector (src/include/sbpl/planners/lazyARA.h:92-96); MHA* and the base class do
nothing (src/planners/mhaplanner.cpp:267-270, src/include/sbpl/planners/planner.h:236-240).
Simplification: the `set_start` / `set_goal` calls at its end are separate `get` events. -/
def World.freeAll (w : World) (h : Nat) : World × Out :=
  match w.pl h with
  | none => (w, .ub)
  | some p =>
    match p.kind with
    | .ara => ({ w with pl := put w.pl h (some { p with arr := fun _ => [] })
                        tab := fun _ _ => none }, .nothing)
    | .ad => ({ w with pl := put w.pl h (some { p with arr := fun _ => [] })
                       tab := fun _ _ => none }, .nothing)
    | .lzy => ({ w with pl := put w.pl h (some { p with own := [] }) }, .nothing)
    | _ => (w, .nothing)

/-- One event.  `resetMap` is `AdjacencyListSBPLEnv::resetStateId2IndexMapping`
(src/include/sbpl/discrete_space_information/environment_precomputed_adjacency_list.h:390-398). -/
def World.step (w : World) : Op → World × Out
  | .newState => (w.newState, .nothing)
  | .create h k => (w.create h k, .nothing)
  | .destroy h => w.destroy h
  | .get h loc id => w.get h loc id
  | .peek h id => w.peek h id
  | .dropLocal h => w.dropLocal h
  | .freeAll h => w.freeAll h
  | .resetMap => ({ w with tab := fun _ _ => none }, .nothing)

/-- A whole history: what the callers see. -/
def World.run : World → List Op → List Out
  | _, [] => []
  | w, op :: ops => (w.step op).2 :: World.run (w.step op).1 ops

end Sbpl.Tab
