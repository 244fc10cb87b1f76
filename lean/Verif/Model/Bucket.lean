import Verif.Model.Heap
/-!
# `CBucket` (src/include/sbpl/utils/list.h:171-424)

States are numbers, `heapindex` is `none` for -1.  Priorities are natural numbers (a negative priority indexes outside the array).  The array has `nb` vectors; vectors are lists.
`INFINITECOST` as an index ("nothing in the list") is `minB = none`.  `maxassortedpriorityVsize` (a statistic) is left out.  `vector::at` with a bad index throws (`outOfRange`).
-/

namespace Sbpl

/-- exceptions: `vector::at`, and "ERROR: in recomputemin in buckets" -/
inductive BktErr where
  | outOfRange | noMin
deriving DecidableEq, Repr

/-- the members (list.h:173-187); `hidx` is the member heapindex of the states -/
structure Bucket where
  nb : Nat
  bk : Nat → List Nat
  ass : List Nat
  hidx : Nat → Option Nat
  minB : Option Nat
  minP : Nat
  minI : Nat

namespace Bucket

def INF : Nat := 1000000000

/-- the constructor (list.h:191-202) with reset (list.h:224-252): `firstpriority` is set to 0 and never to `first`; `first ≤ max` -/
def new (first max : Nat) : Bucket := ⟨max - first + 1 + 2, fun _ => [], [], fun _ => none, none, INF, INF⟩

/-- the test for a non-empty bucket (list.h:385-388): the first of `k` buckets from `b` on -/
def firstFull (bk : Nat → List Nat) : Nat → Nat → Option Nat
  | 0, _ => none
  | k + 1, b => if bk b ≠ [] then some b else firstFull bk k (b + 1)

/-- the loop over the overflow bucket (list.h:401-406): index, number of elements left, priority and index of the minimum so far -/
def minLoop (ass : List Nat) : Nat → Nat → Nat → Nat → Except BktErr (Nat × Nat)
  | _, 0, p, i => .ok (p, i)
  | e, k + 1, p, i =>
    match ass[e]? with
    | none => .error .outOfRange
    | some q => if p > q then minLoop ass (e + 1) k q e else minLoop ass (e + 1) k p i

/-- recomputeminelementupfrombucket (list.h:381-423) -/
def recompute (st : Bucket) (b : Nat) : Except BktErr Bucket :=
  match firstFull st.bk (st.nb - b) b with
  | none => .ok { st with minB := none, minP := INF, minI := INF }
  | some i =>
    if i < st.nb - 2 then .ok { st with minB := some i, minP := i, minI := 0 }
    else if i = st.nb - 2 then
      match minLoop st.ass 0 (st.bk i).length INF INF with
      | .error e => .error e
      | .ok (p, j) => if p = INF then .error .noMin else .ok { st with minB := some i, minP := p, minI := j }
    else .ok { st with minB := some i, minP := INF, minI := 0 }

/-- the bucket of a priority in insert (list.h:331-339) -/
def ixI (st : Bucket) (p : Nat) : Nat := if p = INF then st.nb - 1 else if p ≥ st.nb - 2 then st.nb - 2 else p

/-- the bucket of a priority in remove (list.h:319-323) -/
def ixR (st : Bucket) (p : Nat) : Nat := if p = INF then st.nb - 1 else if p > st.nb - 2 then st.nb - 2 else p

/-- insert (list.h:328-354) -/
def insert (st : Bucket) (a p : Nat) : Except BktErr Bucket :=
  let b := st.ixI p
  let l := st.bk b ++ [a]
  let st1 : Bucket := { st with bk := upd st.bk b l, hidx := upd st.hidx a (some (l.length - 1)), ass := if b = st.nb - 2 then st.ass ++ [p] else st.ass }
  if p < st.minP ∨ st.minP = INF then st1.recompute b else .ok st1

/-- the entry of the last element of the overflow bucket moves to index `r` (list.h:364) -/
def assAfter (st : Bucket) (b r n : Nat) : Except BktErr (List Nat) :=
  if b = st.nb - 2 then
    match st.ass[n]? with
    | none => .error .outOfRange
    | some q => .ok (st.ass.set r q)
  else .ok st.ass

/-- removestategivenbucketindex (list.h:357-379): `assortedpriorityV` does not become shorter -/
def removeAt (st : Bucket) (a b : Nat) : Except BktErr Bucket :=
  match st.hidx a with
  | none => .error .outOfRange
  | some r =>
    match (st.bk b).getLast? with
    | none => .error .outOfRange
    | some y =>
      if (st.bk b).length ≤ r then .error .outOfRange
      else
        let n := (st.bk b).length - 1
        match st.assAfter b r n with
        | .error e => .error e
        | .ok ass' =>
          let l := ((st.bk b).set r y).dropLast
          let st1 : Bucket := { st with bk := upd st.bk b l, ass := ass', hidx := upd (upd st.hidx y (some r)) a none }
          if st.minB = some b ∧ (l = [] ∨ b = st.nb - 2) then st1.recompute b else .ok st1

/-- remove (list.h:316-326) -/
def remove (st : Bucket) (a p : Nat) : Except BktErr Bucket := st.removeAt a (st.ixR p)

/-- empty (list.h:219-222) -/
def empty (st : Bucket) : Bool := st.minB.isNone

/-- getminpriority (list.h:311-314) -/
def minPriority (st : Bucket) : Nat := st.minP

/-- getminelement (list.h:270-288) without DEBUG; the null pointer is `none` -/
def minElement (st : Bucket) : Except BktErr (Option Nat) :=
  match st.minB with
  | none => .ok none
  | some b =>
    match (st.bk b)[st.minI]? with
    | none => .error .outOfRange
    | some a => .ok (some a)

/-- popminelement (list.h:290-309) -/
def popMin (st : Bucket) : Except BktErr (Bucket × Option Nat) :=
  match st.minB with
  | none => .ok (st, none)
  | some b =>
    match (st.bk b)[st.minI]? with
    | none => .error .outOfRange
    | some a =>
      match st.removeAt a b with
      | .error e => .error e
      | .ok st' => .ok (st', some a)

/-- makeemptybucketV (list.h:254-268), a public function: the vectors keep their elements -/
def makeEmpty (st : Bucket) : Bucket :=
  { st with ass := [], hidx := fun a => if ∃ b < st.nb, a ∈ st.bk b then none else st.hidx a, minB := none, minP := INF, minI := INF }

/-- reset (list.h:224-252): makeemptybucketV, then new vectors -/
def reset (st : Bucket) (first max : Nat) : Bucket :=
  { st.makeEmpty with nb := max - first + 1 + 2, bk := fun _ => [], minB := none, minP := INF, minI := INF }

end Bucket
end Sbpl
