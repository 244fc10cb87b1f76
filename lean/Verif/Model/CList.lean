import Verif.Model.Basic
/-!
# `CList` (src/include/sbpl/utils/list.h:40-169), the doubly linked list used for inconsistent states

List elements live in a memory of allocated cells; a dereference of a cell that is not allocated (null
or freed) is the distinct outcome `ListErr.ub`.
One list per `listindex` is assumed (the way the planners use it): the field
`listelem[listindex]` of every state is part of the modelled object.
-/

namespace Sbpl

/-- `struct listelement` (list.h:42-47); a state pointer is modelled by its number. -/
structure LElem where
  st : Nat
  prev : Option Nat
  next : Option Nat
deriving DecidableEq, Repr

/-- The exceptions of list.h:92,95,121, and undefined behaviour. -/
inductive ListErr where
  | full | alreadyIn | notIn | ub
deriving DecidableEq, Repr

/-- `class CList` data (list.h:54-56) with the memory it works on; `brk` is the allocator's next
address. -/
structure CList where
  mem : Nat → Option LElem
  first : Option Nat
  last : Option Nat
  size : Nat
  elem : Nat → Option Nat
  brk : Nat

namespace CList

/-- `#define LISTSIZE 5000000` (list.h:40). -/
def LISTSIZE : Nat := 5000000

/-- `CList()` (list.h:60-65). -/
def mk0 : CList := ⟨fun _ => none, none, none, 0, fun _ => none, 0⟩

/-- `empty` (list.h:74). -/
def isEmpty (l : CList) : Bool := l.size == 0
/-- `full` (list.h:76). -/
def isFull (l : CList) : Bool := decide (l.size ≥ LISTSIZE)
/-- `in` (list.h:78-81). -/
def inList (l : CList) (s : Nat) : Bool := (l.elem s).isSome

/-- write through a pointer: `p->prev = v` -/
def setPrev (mem : Nat → Option LElem) (p : Nat) (v : Option Nat) :
    Except ListErr (Nat → Option LElem) :=
  match mem p with
  | none => .error .ub
  | some e => .ok (upd mem p (some { e with prev := v }))

/-- write through a pointer: `p->next = v` -/
def setNext (mem : Nat → Option LElem) (p : Nat) (v : Option Nat) :
    Except ListErr (Nat → Option LElem) :=
  match mem p with
  | none => .error .ub
  | some e => .ok (upd mem p (some { e with next := v }))

/-- `insert` (list.h:89-107), also `insertinfront` (list.h:109-112). -/
def insert (l : CList) (s : Nat) : Except ListErr CList :=
  if l.size ≥ LISTSIZE then .error .full
  else if (l.elem s).isSome then .error .alreadyIn
  else
    let a := l.brk
    let mem1 := upd l.mem a (some ⟨s, none, l.first⟩)
    match (match l.first with
      | some f => setPrev mem1 f (some a)
      | none => .ok mem1) with
    | .error e => .error e
    | .ok mem2 =>
      .ok { mem := mem2, first := some a,
            last := (match l.last with | none => some a | some x => some x),
            elem := upd l.elem s (some a), size := l.size + 1, brk := l.brk + 1 }

/-- `remove` (list.h:114-147). -/
def remove (l : CList) (s : Nat) : Except ListErr CList :=
  match l.elem s with
  | none => .error .notIn
  | some a =>
    if l.size = 0 then .error .notIn
    else
      match l.mem a with
      | none => .error .ub
      | some e =>
        match (match e.prev, e.next with
          | some p, some n =>
            match setNext l.mem p (some n) with
            | .error x => Except.error x
            | .ok m1 =>
              match setPrev m1 n (some p) with
              | .error x => .error x
              | .ok m2 => .ok (m2, l.first, l.last)
          | some p, none =>
            match setNext l.mem p none with
            | .error x => .error x
            | .ok m1 => .ok (m1, l.first, some p)
          | none, some n =>
            match setPrev l.mem n none with
            | .error x => .error x
            | .ok m1 => .ok (m1, some n, l.last)
          | none, none => .ok (l.mem, none, none)) with
        | .error x => .error x
        | .ok (m, f, la) =>
          .ok { l with mem := upd m a none, first := f, last := la, elem := upd l.elem s none,
                       size := l.size - 1 }

/-- Loop of `makeemptylist` (list.h:83-87); `fuel` bounds the number of iterations. -/
def makeEmptyLoop : Nat → CList → Except ListErr CList
  | 0, l => .ok l
  | fuel + 1, l =>
    match l.first with
    | none => .ok l
    | some f =>
      match l.mem f with
      | none => .error .ub
      | some e =>
        match l.remove e.st with
        | .error x => .error x
        | .ok l' => makeEmptyLoop fuel l'

/-- `makeemptylist` (list.h:83-87); one iteration more than the number of members is never needed. -/
def makeEmpty (l : CList) : Except ListErr CList := makeEmptyLoop (l.size + 1) l

/-- state stored in the cell a pointer points to; a null pointer gives `NULL` -/
def stateAt (l : CList) : Option Nat → Except ListErr (Option Nat)
  | none => .ok none
  | some a =>
    match l.mem a with
    | none => .error .ub
    | some e => .ok (some e.st)

/-- `getfirst` (list.h:149-155). -/
def getFirst (l : CList) : Except ListErr (Option Nat) := l.stateAt l.first
/-- `getlast` (list.h:157-163). -/
def getLast (l : CList) : Except ListErr (Option Nat) := l.stateAt l.last
/-- `getnext` (list.h:165-171); calling it for a state that is not in the list dereferences null. -/
def getNext (l : CList) (s : Nat) : Except ListErr (Option Nat) :=
  match l.elem s with
  | none => .error .ub
  | some a =>
    match l.mem a with
    | none => .error .ub
    | some e => l.stateAt e.next

end CList

/-- One method call on a `CList`. -/
inductive LOp where
  | insert (s : Nat)
  | remove (s : Nat)
  | makeEmpty
  | inList (s : Nat)
  | getFirst
  | getLast
  | getNext (s : Nat)
  | isEmpty
  | isFull
deriving DecidableEq, Repr

/-- What the caller observes. -/
inductive LOut where
  | done
  | bool (b : Bool)
  | state (s : Option Nat)
  | err (e : ListErr)
deriving DecidableEq, Repr

namespace CList

def liftU (l : CList) : Except ListErr CList → CList × LOut
  | .ok l' => (l', .done)
  | .error e => (l, .err e)
def liftS (l : CList) : Except ListErr (Option Nat) → CList × LOut
  | .ok s => (l, .state s)
  | .error e => (l, .err e)

/-- One call (list.h:74-171). -/
def step (l : CList) : LOp → CList × LOut
  | .insert s => liftU l (l.insert s)
  | .remove s => liftU l (l.remove s)
  | .makeEmpty => liftU l l.makeEmpty
  | .inList s => (l, .bool (l.inList s))
  | .getFirst => liftS l l.getFirst
  | .getLast => liftS l l.getLast
  | .getNext s => liftS l (l.getNext s)
  | .isEmpty => (l, .bool l.isEmpty)
  | .isFull => (l, .bool l.isFull)

/-- A history of calls. -/
def run (l : CList) : List LOp → CList × List LOut
  | [] => (l, [])
  | op :: ops =>
    let r := l.step op
    let rest := run r.1 ops
    (rest.1, r.2 :: rest.2)

end CList
end Sbpl
