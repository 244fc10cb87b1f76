import Verif.Model.Basic
/-!
# `CSlidingBucket` (src/include/sbpl/utils/list.h:426-680)

Simplifications: the pointers stored are numbers; `bucketV[k]` is a function with a capacity `cap k` (0: the NULL pointer), and any
access outside the capacity is the error `oob`; priorities are unbounded integers; the scan for the minimum carries fuel (proved
sufficient).
-/

namespace Sbpl

/-- exceptions and undefined behaviour -/
inductive SBErr where
  | window
  | full
  | oob
  | noTermination
deriving DecidableEq, Repr

/-- the fields of the class (list.h:430-445); `dyn` is initialdynamicsize, `last` is lastelementindexV -/
structure SBuck where
  n : Nat
  bsz : Nat
  dyn : Nat
  cap : Nat → Nat
  arr : Nat → Nat → Option Nat
  last : Nat → Int
  minB : Nat
  minI : Int
  maxP : Int
  minP : Int
  firstB : Nat
  firstP : Int

namespace SBuck

/-- constructor (list.h:450-473) -/
def mk0 (n bsz dyn : Nat) : SBuck :=
  { n := n, bsz := bsz, dyn := dyn, cap := fun _ => 0, arr := fun _ _ => none, last := fun _ => -1, minB := 0, minI := -1, maxP := 0,
    minP := 0, firstB := 0, firstP := 0 }

/-- empty (list.h:496-499) -/
def isEmpty (b : SBuck) : Bool := b.minI == -1 && b.maxP == b.minP

/-- reset (list.h:506-525) -/
def reset (b : SBuck) : SBuck :=
  { b with arr := fun _ _ => none, last := fun _ => -1, minB := 0, minI := -1, maxP := 0, minP := 0, firstB := 0, firstP := 0 }

/-- `bucketV[k][i]`, preceded by the test for NULL -/
def read (b : SBuck) (k : Nat) (i : Int) : Except SBErr (Option Nat) :=
  if b.cap k = 0 then .ok none else if 0 ≤ i ∧ i < b.cap k then .ok (b.arr k i.toNat) else .error .oob

/-- the loop of recomputeandreturnmin (list.h:626-650) -/
def scan : Nat → SBuck → Except SBErr (Option Nat × SBuck)
  | 0, _ => .error .noTermination
  | fuel + 1, b =>
    match (if b.minI = -1 then .ok none else b.read b.minB b.minI) with
    | .error e => .error e
    | .ok (some x) => .ok (some x, b)
    | .ok none =>
      if b.minI < b.last b.minB then scan fuel { b with minI := b.minI + 1 }
      else if b.minP = b.maxP then .ok (none, { b with last := upd b.last b.minB (-1), minI := -1 })
      else scan fuel { b with last := upd b.last b.minB (-1), minB := (b.minB + 1) % b.n, minI := 0, minP := b.minP + 1 }

/-- recomputeandreturnmin (list.h:624-651) -/
def recompute (b : SBuck) : Except SBErr (Option Nat × SBuck) :=
  if b.isEmpty then .ok (none, b) else scan ((b.maxP - b.minP).toNat * (b.bsz + 2) + b.bsz + 2) b

/-- getminelement (list.h:551-565) -/
def getMin (b : SBuck) : Except SBErr (Option Nat × SBuck) :=
  if b.isEmpty then .ok (none, b)
  else
    match (if b.minI = -1 then .ok none else b.read b.minB b.minI) with
    | .error e => .error e
    | .ok (some x) => .ok (some x, b)
    | .ok none => b.recompute

/-- popminelement (list.h:527-549) -/
def pop (b : SBuck) : Except SBErr (Option Nat × SBuck) :=
  if b.isEmpty then .ok (none, b)
  else
    match b.getMin with
    | .error e => .error e
    | .ok (x, b1) =>
      if 0 ≤ b1.minI ∧ b1.minI < b1.cap b1.minB then
        let b2 := { b1 with arr := upd b1.arr b1.minB (upd (b1.arr b1.minB) b1.minI.toNat none), firstB := b1.minB, firstP := b1.minP }
        match b2.recompute with
        | .error e => .error e
        | .ok (_, b3) => .ok (x, b3)
      else .error .oob

/-- size of bucket `k` when its slot `l` is about to be written: createbucket (list.h:653-676) and the resizing in insert
(list.h:592-607) -/
def newCap (b : SBuck) (k : Nat) (l : Int) : Nat :=
  let c0 := if b.cap k = 0 then (if b.dyn ≠ 0 then b.dyn else b.bsz) else b.cap k
  if b.dyn ≠ 0 ∧ l ≥ c0 then (if min (c0 * 2) b.bsz ≠ c0 then min (c0 * 2) b.bsz else c0) else c0

/-- insert (list.h:567-620) -/
def insert (b : SBuck) (x : Nat) (p : Int) : Except SBErr SBuck :=
  let inc := p - b.firstP
  if inc ≥ b.n ∨ inc < 0 then .error .window
  else
    let k := (b.firstB + inc.toNat) % b.n
    let l := b.last k + 1
    if l = b.bsz then .error .full
    else
      let c1 := b.newCap k l
      if 0 ≤ l ∧ l < c1 then
        let minP := if p < b.minP then p else b.minP
        let minB := if p < b.minP then k else b.minB
        .ok { b with
          cap := upd b.cap k c1
          arr := upd b.arr k (upd (b.arr k) l.toNat (some x))
          last := upd b.last k l
          maxP := if p > b.maxP then p else b.maxP
          minP := minP
          minB := minB
          minI := if minB = k ∧ b.minI = -1 then 0 else b.minI }
      else .error .oob

/-- getminkey (list.h:501-504) -/
def getMinKey (b : SBuck) : Int := b.minP

end SBuck
end Sbpl
