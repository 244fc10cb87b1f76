import Verif.Model.SlidingBucket
/-!
# Specification of the sliding bucket queue

A queue is a list of elements with priorities.  A call answers and changes it as follows; `n` is the number of buckets and `bsz` their
maximal size.
-/

namespace Sbpl

/-- One method call. -/
inductive SBOp where
  | insert (x : Nat) (p : Int) | pop | getMin | minKey | isEmpty | reset
deriving DecidableEq, Repr

/-- What the caller observes. -/
inductive SBOut where
  | done | item (x : Option Nat) | key (p : Int) | bool (b : Bool) | raised (e : SBErr)
deriving DecidableEq, Repr

namespace SBuckSpec

/-- `items`: in the order in which they will be returned; `first`: start of the window of admissible priorities, the priority of the
element returned last by pop; `gone`: how many elements of that priority have been returned since the queue last held none of them;
`located`: whether the reported smallest priority is up to date. -/
structure St where
  items : List (Nat × Int)
  first : Int
  gone : Nat
  located : Bool
deriving DecidableEq, Repr

/-- number of elements of priority `p` -/
def count (l : List (Nat × Int)) (p : Int) : Nat := l.countP (fun e => decide (e.2 = p))

/-- `x` goes behind all the elements of smaller or equal priority -/
def place (l : List (Nat × Int)) (x : Nat) (p : Int) : List (Nat × Int) :=
  match l with
  | [] => [(x, p)]
  | e :: l => if e.2 ≤ p then e :: place l x p else (x, p) :: e :: l

def step (n bsz : Nat) (s : St) : SBOp → St × SBOut
  | .insert x p =>
    if p < s.first ∨ s.first + n ≤ p then (s, .raised .window)
    else if count s.items p + (if p = s.first then s.gone else 0) = bsz then (s, .raised .full)
    else ({ s with items := place s.items x p, located := s.located || p == s.first }, .done)
  | .pop =>
    match s.items with
    | [] => (s, .item none)
    | (x, p) :: l =>
      ({ items := l, first := p, gone := if count l p = 0 then 0 else (if p = s.first then s.gone else 0) + 1, located := !l.isEmpty },
        .item (some x))
  | .getMin => ({ s with located := !s.items.isEmpty }, .item (s.items.head?.map Prod.fst))
  | .minKey => (s, .key (match s.items with | [] => s.first | (_, p) :: _ => if s.located then p else s.first))
  | .isEmpty => (s, .bool s.items.isEmpty)
  | .reset => (⟨[], 0, 0, false⟩, .done)

def run (n bsz : Nat) (s : St) : List SBOp → St × List SBOut
  | [] => (s, [])
  | op :: ops => ((run n bsz (step n bsz s op).1 ops).1, (step n bsz s op).2 :: (run n bsz (step n bsz s op).1 ops).2)

/-- a new queue -/
def new : St := ⟨[], 0, 0, false⟩

end SBuckSpec

namespace SBuck

/-- a call; an exception leaves the object as it was before the call -/
def step (b : SBuck) : SBOp → SBuck × SBOut
  | .insert x p => match b.insert x p with
    | .ok b' => (b', .done)
    | .error e => (b, .raised e)
  | .pop => match b.pop with
    | .ok (x, b') => (b', .item x)
    | .error e => (b, .raised e)
  | .getMin => match b.getMin with
    | .ok (x, b') => (b', .item x)
    | .error e => (b, .raised e)
  | .minKey => (b, .key b.getMinKey)
  | .isEmpty => (b, .bool b.isEmpty)
  | .reset => (b.reset, .done)

def run (b : SBuck) : List SBOp → SBuck × List SBOut
  | [] => (b, [])
  | op :: ops => ((run (b.step op).1 ops).1, (b.step op).2 :: (run (b.step op).1 ops).2)

end SBuck
end Sbpl
