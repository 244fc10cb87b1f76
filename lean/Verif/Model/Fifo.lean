import Verif.Model.Basic
/-!
# `sbpl_fifo` (src/include/sbpl/utils/sbpl_fifo.h:35-93), the ring buffer used by the BFS searches
-/

namespace Sbpl

/-- `class sbpl_fifo` data (sbpl_fifo.h:88-92).  `head` is the write position, `tail` the read
position.  The `int`/`unsigned` fields are modelled by `Nat` (they never become negative). -/
structure Fifo (α : Type) where
  q : Nat → α
  head : Nat
  tail : Nat
  size : Nat

namespace Fifo
variable {α : Type}

/-- constructor (sbpl_fifo.h:38-44); `d` is the indeterminate initial content -/
def mk0 (n : Nat) (d : α) : Fifo α := ⟨fun _ => d, 0, 0, n⟩

/-- the condition of sbpl_fifo.h:54 -/
def isFull (f : Fifo α) : Bool :=
  decide (f.tail = f.head + 1) || (decide (f.tail = 0) && decide (f.head + 1 = f.size))

/-- `insert` (sbpl_fifo.h:51-62): new queue and return value -/
def insert (f : Fifo α) (v : α) : Fifo α × Bool :=
  if f.isFull then (f, false)
  else
    let h := f.head + 1
    ({ f with q := upd f.q f.head v, head := if h = f.size then 0 else h }, true)

/-- `remove` (sbpl_fifo.h:64-74): new queue and the value, `none` if it returns false -/
def remove (f : Fifo α) : Fifo α × Option α :=
  if f.head = f.tail then (f, none)
  else
    let t := f.tail + 1
    ({ f with tail := if t = f.size then 0 else t }, some (f.q f.tail))

/-- `empty` (sbpl_fifo.h:76-79) -/
def isEmpty (f : Fifo α) : Bool := decide (f.head = f.tail)
/-- `clear` (sbpl_fifo.h:81-85) -/
def clear (f : Fifo α) : Fifo α := { f with head := 0, tail := 0 }

end Fifo

/-- One method call on a queue. -/
inductive QOp (α : Type) where
  | insert (v : α) | remove | isEmpty | clear

/-- What the caller observes: a boolean, or a removed value (`none`: returned false). -/
inductive QOut (α : Type) where
  | bool (b : Bool) | val (v : Option α) | done

namespace Fifo
variable {α : Type}

/-- One call (sbpl_fifo.h:51-85). -/
def step (f : Fifo α) : QOp α → Fifo α × QOut α
  | .insert v => ((f.insert v).1, .bool (f.insert v).2)
  | .remove => (f.remove.1, .val f.remove.2)
  | .isEmpty => (f, .bool f.isEmpty)
  | .clear => (f.clear, .done)

/-- A history of calls. -/
def run (f : Fifo α) : List (QOp α) → Fifo α × List (QOut α)
  | [] => (f, [])
  | op :: ops => ((run (f.step op).1 ops).1, (f.step op).2 :: (run (f.step op).1 ops).2)

end Fifo
end Sbpl
