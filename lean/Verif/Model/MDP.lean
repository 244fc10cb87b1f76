import Mathlib.Data.Rat.Floor
import Verif.Model.Basic
/-!
# `CMDPACTION`, `CMDPSTATE` (src/include/sbpl/utils/mdp.h, src/utils/mdp.cpp) and `PathExists` (src/utils/utils.cpp)

`vector` is `List`; `float` probabilities are exact rationals; pointers to states are their positions in `StateArray`.
-/

namespace Sbpl
namespace MDP

/-- `CMDPACTION` (mdp.h:45-81); one list of outcomes instead of the three parallel vectors `SuccsID`, `Costs`, `SuccsProb`, which
are only modified together (AddOutcome mdp.cpp:65-79, Delete 39-45, DeleteAllOutcomes 47-53) -/
structure Action where
  id : Int
  outs : List (Int × Int × ℚ)

/-- `CMDPACTION::AddOutcome` (mdp.cpp:65-79) -/
def Action.addOutcome (a : Action) (s c : Int) (p : ℚ) : Action := { a with outs := a.outs ++ [(s, c, p)] }

/-- loop of `GetIndofMostLikelyOutcome` (mdp.cpp:91-96): position, best so far -/
def mlLoop : List (Int × Int × ℚ) → Nat → Option Nat → ℚ → Option Nat
  | [], _, ml, _ => ml
  | (_, _, p) :: os, i, ml, hi => if p ≥ hi then mlLoop os (i + 1) (some i) p else mlLoop os (i + 1) ml hi

/-- `CMDPACTION::GetIndofMostLikelyOutcome` (mdp.cpp:86-99); `none` is the returned -1 -/
def Action.mostLikely (a : Action) : Option Nat := mlLoop a.outs 0 none 0

/-- loop of `GetIndofOutcome` (mdp.cpp:103-107) -/
def indLoop (s : Int) : List (Int × Int × ℚ) → Nat → Option Nat
  | [], _ => none
  | (t, _, _) :: os, i => if t = s then some i else indLoop s os (i + 1)

/-- `CMDPACTION::GetIndofOutcome` (mdp.cpp:101-110) -/
def Action.indOfOutcome (a : Action) (s : Int) : Option Nat := indLoop s a.outs 0

/-- `CMDPSTATE` (mdp.h:83-121) -/
structure State where
  id : Int
  actions : List Action
  preds : List Int

/-- loop of `ContainsPred` (mdp.cpp:206-212) -/
def State.containsPred (s : State) (p : Int) : Bool := s.preds.any (· == p)

/-- `CMDPSTATE::AddPred` (mdp.cpp:156-171) -/
def State.addPred (s : State) (p : Int) : State := if s.containsPred p then s else { s with preds := s.preds ++ [p] }

/-- first position of `p`, if any: the loop of `RemovePred` (mdp.cpp:175-176) -/
def posOf (p : Int) : List Int → Nat → Option Nat
  | [], _ => none
  | x :: xs, i => if x = p then some i else posOf p xs (i + 1)

/-- `CMDPSTATE::RemovePred` (mdp.cpp:173-187): the last entry takes the place of the removed one -/
def State.removePred (s : State) (p : Int) : State × Bool :=
  match posOf p s.preds 0 with
  | none => (s, false)
  | some i => ({ s with preds := (s.preds.set i (s.preds.getLastD 0)).dropLast }, true)

/-- `CMDPSTATE::AddAction` (mdp.cpp:139-154) -/
def State.addAction (s : State) (id : Int) : State := { s with actions := s.actions ++ [⟨id, []⟩] }

/-- `CMDPSTATE::GetAction` (mdp.cpp:219-226); `none` is the null pointer -/
def State.getAction (s : State) (id : Int) : Option Action := s.actions.find? (fun a => a.id == id)

/-- A call on the predecessor list. -/
inductive PredOp where
  | add (p : Int) | remove (p : Int) | contains (p : Int)

/-- Perform a call: new state and return value (`AddPred` always returns true). -/
def State.predStep (s : State) : PredOp → State × Bool
  | .add p => (s.addPred p, true)
  | .remove p => s.removePred p
  | .contains p => (s, s.containsPred p)

/-- A history of calls, with all return values. -/
def State.predRun (s : State) : List PredOp → State × List Bool
  | [] => (s, [])
  | op :: ops => ((State.predRun (s.predStep op).1 ops).1, (s.predStep op).2 :: (State.predRun (s.predStep op).1 ops).2)

/-! ## PathExists -/

/-- outcomes of the two exceptions thrown by `PathExists` -/
inductive Err where
  | generalMDP | succNotFound
  deriving DecidableEq

/-- position of the first state with the given ID (utils.cpp:150-152) -/
def find (m : List State) (id : Int) : Option Nat := m.findIdx? (fun s => s.id == id)

/-- the successor loop (utils.cpp:148-163): IDs still to handle, `bProcessed`, `WorkList` (top first) -/
def succLoop (m : List State) : List (Int × Int × ℚ) → (Nat → Bool) → List Nat → Except Err ((Nat → Bool) × List Nat)
  | [], proc, wl => .ok (proc, wl)
  | (id, _, _) :: os, proc, wl =>
    match find m id with
    | none => .error .succNotFound
    | some i => if proc i = false then succLoop m os (upd proc i true) (i :: wl) else succLoop m os proc wl

/-- the work-list loop (utils.cpp:132-164) with a budget of passes (`none`: still running) -/
def loop (m : List State) (target : Nat) : Nat → (Nat → Bool) → List Nat → Option (Except Err Bool)
  | _, _, [] => some (.ok false)
  | 0, _, _ :: _ => none
  | n + 1, proc, i :: wl =>
    match m[i]? with
    | none => none  -- a dangling pointer; never happens (work-list entries are positions in StateArray)
    | some s =>
      if s.actions.length > 1 then some (.error .generalMDP)
      else if i = target then some (.ok true)
      else
        match succLoop m ((s.actions.head?.map Action.outs).getD []) proc wl with
        | .error e => some (.error e)
        | .ok (proc', wl') => loop m target n proc' wl'

/-- `PathExists` (utils.cpp:116-170) -/
def pathExists (m : List State) (source target fuel : Nat) : Option (Except Err Bool) :=
  loop m target fuel (fun _ => false) [source]

end MDP
end Sbpl
