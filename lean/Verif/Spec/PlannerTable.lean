/-!
# Planners that share one environment: specification (C175, C176)

Small vocabulary, independent of how the planners store their search states.

* An environment numbers its states `0, 1, 2, …`; the number of states it knows only grows.
* A planner asks for its search record of the environment state with a given ID.
* What a user expects is that **every planner has records of its own**: `Priv` below is that ideal
  machine.  A record is named by a serial number: two records are the same object in memory
  exactly when they have the same serial number.
* `Tracker` / `Legal` describe the histories in which the planners really behave that way.
-/

namespace Sbpl.TabSpec

/-- The kinds of planners. -/
inductive Kind
  | vi | ara | ad | rstar | ana | mha | lzy
  deriving DecidableEq, Repr

/-- A planner's search record: its identity, and the environment state it belongs to. -/
structure Obj where
  serial : Nat
  id : Nat
  deriving DecidableEq, Repr

/-- The events of a history of one environment and the planners made for it.  Planners are named by
a number.  `loc` chooses the records of the local search (R* has these) or the ordinary ones. -/
inductive Op
  /-- the environment creates a new state -/
  | newState
  /-- a planner is constructed -/
  | create (h : Nat) (k : Kind)
  /-- a planner is destroyed -/
  | destroy (h : Nat)
  /-- the planner asks for its record of a state -/
  | get (h : Nat) (loc : Bool) (id : Int)
  /-- the planner asks whether it has a record of a state (AD* does) -/
  | peek (h : Nat) (id : Int)
  /-- the records of the local search are deleted -/
  | dropLocal (h : Nat)
  /-- `force_planning_from_scratch_and_free_memory` -/
  | freeAll (h : Nat)
  /-- the environment forgets all associations (the adjacency list environment can do that) -/
  | resetMap
  deriving Repr

/-- What an event lets the caller see. -/
inductive Out
  | nothing
  | record (o : Obj)
  | known (b : Bool)
  /-- the exception "stateID is invalid" -/
  | invalid
  /-- the exception "maximum of states is reached" -/
  | tooMany
  /-- a failed assertion -/
  | abort
  /-- undefined behaviour: a read outside an array, or the use of a deleted planner -/
  | ub
  deriving DecidableEq, Repr

/-! ## The ideal machine: private records -/

structure Priv where
  ids : Nat
  live : Nat → Option Kind
  /-- which record (by serial number) planner `h` has for a state -/
  has : Nat → Bool → Nat → Option Nat
  /-- how many records it has -/
  count : Nat → Bool → Nat
  next : Nat

/-- Nothing has happened yet. -/
def Priv.init : Priv := ⟨0, fun _ => none, fun _ _ _ => none, fun _ _ => 0, 0⟩

/-- A function changed in one place. -/
def put {α β : Type} [DecidableEq α] (f : α → β) (a : α) (b : β) : α → β :=
  fun x => if x = a then b else f x

/-- The planner `h` forgets its (local) records. -/
def Priv.forget (p : Priv) (h : Nat) (loc : Bool) : Priv :=
  { p with has := put p.has h (put (p.has h) loc (fun _ => none))
           count := put p.count h (put (p.count h) loc 0) }

/-- A new record. -/
def Priv.alloc (p : Priv) (h : Nat) (loc : Bool) (id : Nat) : Priv :=
  { p with has := put p.has h (put (p.has h) loc (put (p.has h loc) id (some p.next)))
           count := put p.count h (put (p.count h) loc (p.count h loc + 1))
           next := p.next + 1 }

/-- Asking for a record: the existing one, or a new one. -/
def Priv.fetch (p : Priv) (cap : Option Nat) (h : Nat) (loc : Bool) (id : Nat) : Priv × Out :=
  match p.has h loc id with
  | some s => (p, .record ⟨s, id⟩)
  | none =>
    if cap.any (fun c => c ≤ p.count h loc) then (p, .tooMany)
    else (p.alloc h loc id, .record ⟨p.next, id⟩)

/-- One event of the ideal machine; `cap` is the largest number of records of a planner (Lazy ARA*
and MHA* have no limit; Lazy ARA* also accepts IDs the environment does not know yet). -/
def Priv.step (cap : Nat) (p : Priv) : Op → Priv × Out
  | .newState => ({ p with ids := p.ids + 1 }, .nothing)
  | .create h k =>
    ({ ((p.forget h false).forget h true) with live := put p.live h (some k) }, .nothing)
  | .destroy h =>
    ({ ((p.forget h false).forget h true) with live := put p.live h none }, .nothing)
  | .get h loc id =>
    match p.live h with
    | none => (p, .ub)
    | some .lzy => p.fetch none h loc id.toNat
    | some .mha => p.fetch none h loc id.toNat
    | some _ => if (p.ids : Int) ≤ id then (p, .invalid) else p.fetch (some cap) h loc id.toNat
  | .peek h id => (p, .known (p.has h false id.toNat).isSome)
  | .dropLocal h => (p.forget h true, .nothing)
  | .freeAll h =>
    match p.live h with
    | some .ara => ((p.forget h false).forget h true, .nothing)
    | some .ad => ((p.forget h false).forget h true, .nothing)
    | some .lzy => ((p.forget h false).forget h true, .nothing)
    | _ => (p, .nothing)
  | .resetMap => (p, .nothing)

/-- A whole history: what the callers see. -/
def Priv.run (cap : Nat) : Priv → List Op → List Out
  | _, [] => []
  | p, op :: ops => (p.step cap op).2 :: Priv.run cap (p.step cap op).1 ops

/-! ## The histories in which that is what happens

Planners other than Lazy ARA* leave marks in the environment.  `user` is the planner the marks
belong to; `clean` says there are no marks at all; `fresh h` says that `h` has made no records
since it was constructed or since it freed its memory. -/

structure Tracker where
  ids : Nat
  live : Nat → Option Kind
  user : Option Nat
  clean : Bool
  fresh : Nat → Bool

def Tracker.init : Tracker := ⟨0, fun _ => none, none, true, fun _ => false⟩

/-- The planner `h` may touch the marks: they are its own, or there are none and it has no
records. -/
def Tracker.MayUse (t : Tracker) (h : Nat) : Prop :=
  t.user = some h ∨ (t.clean = true ∧ t.fresh h = true)

/-- When an event is allowed. -/
def Tracker.Allows (t : Tracker) : Op → Prop
  | .newState => True
  | .create h _ => t.live h = none
  | .destroy h =>
    match t.live h with
    | none => False
    | some .mha => t.user = some h ∨ t.user = none ∨ t.fresh h = true
    | some _ => True
  | .get h loc id =>
    0 ≤ id ∧
    match t.live h with
    | none => False
    | some .lzy => loc = false
    | some .mha => loc = false ∧ id < t.ids ∧ t.MayUse h
    | some .rstar => t.MayUse h
    | some _ => loc = false ∧ t.MayUse h
  | .peek h id => 0 ≤ id ∧ id < t.ids ∧ t.live h = some .ad ∧ t.MayUse h
  | .dropLocal h => t.live h = some .rstar ∧ t.MayUse h
  | .freeAll h => t.live h ≠ none
  | .resetMap => True

/-- The marks are used by `h` from now on. -/
def Tracker.used (t : Tracker) (h : Nat) : Tracker :=
  { t with user := some h, clean := false, fresh := put t.fresh h false }

/-- All marks are gone. -/
def Tracker.wiped (t : Tracker) : Tracker :=
  { t with user := none, clean := true }

/-- Bookkeeping. -/
def Tracker.step (t : Tracker) : Op → Tracker
  | .newState => { t with ids := t.ids + 1 }
  | .create h k => { t with live := put t.live h (some k), fresh := put t.fresh h true }
  | .destroy h =>
    match t.live h with
    | some .lzy => { t with live := put t.live h none }
    | some .mha =>
      if t.user = some h then { t.wiped with live := put t.live h none }
      else { t with live := put t.live h none }
    | _ =>
      if t.user = some h then { t with live := put t.live h none, user := none }
      else { t with live := put t.live h none }
  | .get h _ _ => if t.live h = some .lzy then t else t.used h
  | .peek _ _ => t
  | .dropLocal _ => t
  | .freeAll h =>
    match t.live h with
    | some .ara => { t.wiped with fresh := put t.fresh h true }
    | some .ad => { t.wiped with fresh := put t.fresh h true }
    | _ => t
  | .resetMap => t.wiped

/-- Every event of the history is allowed when it happens. -/
def Legal : Tracker → List Op → Prop
  | _, [] => True
  | t, op :: ops => t.Allows op ∧ Legal (t.step op) ops

instance (t : Tracker) (h : Nat) : Decidable (t.MayUse h) := by
  unfold Tracker.MayUse; infer_instance

instance (t : Tracker) (op : Op) : Decidable (t.Allows op) := by
  cases op with
  | newState => exact isTrue trivial
  | create h k => exact inferInstanceAs (Decidable (t.live h = none))
  | destroy h =>
    simp only [Tracker.Allows]
    cases t.live h with
    | none => exact isFalse id
    | some k =>
      cases k with
      | mha => exact inferInstanceAs (Decidable (t.user = some h ∨ t.user = none ∨ t.fresh h = true))
      | _ => exact isTrue trivial
  | get h loc id =>
    simp only [Tracker.Allows]
    cases t.live h with
    | none => exact isFalse (fun x => x.2)
    | some k =>
      cases k with
      | lzy => exact inferInstanceAs (Decidable (0 ≤ id ∧ loc = false))
      | mha => exact inferInstanceAs (Decidable (0 ≤ id ∧ loc = false ∧ id < t.ids ∧ t.MayUse h))
      | rstar => exact inferInstanceAs (Decidable (0 ≤ id ∧ t.MayUse h))
      | _ => exact inferInstanceAs (Decidable (0 ≤ id ∧ loc = false ∧ t.MayUse h))
  | peek h id => exact inferInstanceAs (Decidable (0 ≤ id ∧ id < t.ids ∧ t.live h = some .ad ∧ t.MayUse h))
  | dropLocal h => exact inferInstanceAs (Decidable (t.live h = some .rstar ∧ t.MayUse h))
  | freeAll h => exact inferInstanceAs (Decidable (t.live h ≠ none))
  | resetMap => exact isTrue trivial

instance instDecidableLegal : (t : Tracker) → (ops : List Op) → Decidable (Legal t ops)
  | _, [] => isTrue trivial
  | t, op :: ops =>
    have := instDecidableLegal (t.step op) ops
    by unfold Legal; infer_instance

end Sbpl.TabSpec
