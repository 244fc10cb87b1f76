import Verif.Model.MDP
/-!
# `EvaluatePolicy` (src/utils/utils.cpp:188-300)

`double` and `float` are exact rationals; the arrays `vals`, `Pcvals` are functions of the position in `StateArray`.
The outer loop has a bound on its iterations (`noTermination`).  `*bCycles` is read before it is written: its value before the
call is an argument.
-/

namespace Sbpl
namespace MDP

/-- the exceptions of EvaluatePolicy, of PathExists called from it (`path`), and `noStart`: `vals[-1]` is read because the
start state is not in the array -/
inductive EvErr where
  | incorrectSucc | decreasing | path (e : Err) | pathRuns | noStart | noTermination
  deriving DecidableEq

/-- `#define UNKNOWN_COST 1000000` (utils.h:56) -/
def UNKNOWN_COST : ℚ := 1000000

/-- the local variables and output parameters -/
structure Ev where
  vals : Nat → ℚ
  pc : Nat → ℚ
  pcGoal : ℚ
  merges : Int
  full : Bool
  cyc : Bool
  delta : ℚ

/-- outcomes of the policy's action in a state: `Actions[0]` (utils.cpp:235, 268-269) -/
def State.outs (s : State) : List (Int × Int × ℚ) := (s.actions.head?.map Action.outs).getD []

/-- the backup (utils.cpp:237-250): `Q` so far -/
def backupQ (m : List State) (vals : Nat → ℚ) : List (Int × Int × ℚ) → ℚ → Except EvErr ℚ
  | [], q => .ok q
  | (t, c, p) :: os, q =>
    match find m t with
    | none => .error .incorrectSucc
    | some j => backupQ m vals os (q + p * (vals j + c))

/-- local variables of the predecessor loop: `Pc`, `nMerge`, `*bCycles` -/
structure PAcc where
  pc : ℚ
  n : Int
  cyc : Bool

/-- the inner loop over the outcomes of predecessor `j` (utils.cpp:268-285) -/
def outLoop (m : List State) (pcv : Nat → ℚ) (first : Bool) (i : Nat) (id : Int) (j : Nat) : List (Int × Int × ℚ) → PAcc → Except EvErr PAcc
  | [], a => .ok a
  | (t, _, p) :: os, a =>
    if t = id then
      let a1 : PAcc := { a with pc := a.pc + p * pcv j, n := a.n + 1 }
      if first = true ∧ a.cyc = false then
        match pathExists m i j (m.length + 1) with
        | none => .error .pathRuns
        | some (.error e) => .error (.path e)
        | some (.ok b) => outLoop m pcv first i id j os { a1 with cyc := b }
      else outLoop m pcv first i id j os a1
    else outLoop m pcv first i id j os a

/-- the loop over all states as predecessors (utils.cpp:267-286) -/
def predLoop (m : List State) (pcv : Nat → ℚ) (first : Bool) (i : Nat) (id : Int) : List State → Nat → PAcc → Except EvErr PAcc
  | [], _, a => .ok a
  | s :: ss, j, a =>
    match outLoop m pcv first i id j s.outs a with
    | .error e => .error e
    | .ok a1 => predLoop m pcv first i id ss (j + 1) a1

/-- the second half of the loop body (utils.cpp:263-292) for state `i` with ID `id` -/
def pcPart (m : List State) (start goal : Int) (first : Bool) (i : Nat) (id : Int) (e : Ev) : Except EvErr Ev :=
  match predLoop m e.pc first i id m 0 ⟨0, 0, e.cyc⟩ with
  | .error x => .error x
  | .ok a =>
    let pc1 := if id ≠ start then upd e.pc i a.pc else e.pc
    .ok { e with
      cyc := a.cyc
      merges := if first = true ∧ id ≠ goal ∧ a.n > 0 then e.merges + (a.n - 1) else e.merges
      pc := pc1
      pcGoal := if id = goal then pc1 i else e.pcGoal }

/-- loop body for state `s` at position `i` (utils.cpp:220-292); the flag is true if the function returns here (no action) -/
def stateStep (m : List State) (start goal : Int) (first : Bool) (i : Nat) (s : State) (e : Ev) : Except EvErr (Bool × Ev) :=
  if s.id = goal then
    match pcPart m start goal first i s.id { e with vals := upd e.vals i 0 } with
    | .error x => .error x
    | .ok e1 => .ok (false, e1)
  else
    match s.actions with
    | [] => .ok (true, { e with full := false, vals := upd e.vals i UNKNOWN_COST })
    | a :: _ =>
      match backupQ m e.vals a.outs 0 with
      | .error x => .error x
      | .ok q =>
        if e.vals i > q then .error .decreasing
        else
          match pcPart m start goal first i s.id { e with delta := if e.delta < q - e.vals i then q - e.vals i else e.delta, vals := upd e.vals i q } with
          | .error x => .error x
          | .ok e1 => .ok (false, e1)

/-- one pass over the states (utils.cpp:219-293) -/
def sweep (m : List State) (start goal : Int) (first : Bool) : List State → Nat → Ev → Except EvErr (Bool × Ev)
  | [], _, e => .ok (false, e)
  | s :: ss, i, e =>
    match stateStep m start goal first i s e with
    | .error x => .error x
    | .ok (true, e1) => .ok (true, e1)
    | .ok (false, e1) => sweep m start goal first ss (i + 1) e1

/-- the outer loop (utils.cpp:217-295) -/
def evLoop (m : List State) (start goal : Int) : Nat → Bool → Ev → Except EvErr Ev
  | 0, _, _ => .error .noTermination
  | fuel + 1, first, e =>
    if e.delta > 1 / 10 then
      match sweep m start goal first m 0 { e with delta := 0 } with
      | .error x => .error x
      | .ok (true, e1) => .ok e1
      | .ok (false, e1) => evLoop m start goal fuel false e1
    else .ok e

/-- `startind` (utils.cpp:203-212): the last position with that ID -/
def startInd (start : Int) : List State → Nat → Option Nat → Option Nat
  | [], _, r => r
  | s :: ss, i, r => startInd start ss (i + 1) (if s.id = start then some i else r)

/-- output parameters -/
structure EvRes where
  value : ℚ
  full : Bool
  pcGoal : ℚ
  merges : Int
  cyc : Bool
deriving DecidableEq

/-- initialisation (utils.cpp:191-216) -/
def ev0 (m : List State) (start : Int) (cyc0 : Bool) : Ev :=
  ⟨fun _ => 0, fun i => match m[i]? with
    | some s => if s.id = start then 1 else 0
    | none => 0, 0, 0, true, cyc0, INFINITECOST⟩

/-- `EvaluatePolicy` (utils.cpp:188-300); `cyc0` is the value of `*bCycles` before the call -/
def evaluate (m : List State) (start goal : Int) (cyc0 : Bool) (fuel : Nat) : Except EvErr EvRes :=
  match evLoop m start goal fuel true (ev0 m start cyc0) with
  | .error x => .error x
  | .ok e =>
    match startInd start m 0 none with
    | none => .error .noStart
    | some i => .ok ⟨e.vals i, e.full, e.pcGoal, e.merges, e.cyc⟩

end MDP
end Sbpl
