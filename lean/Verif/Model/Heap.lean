import Mathlib.Order.Defs.LinearOrder
import Verif.Model.Basic
/-!
# `CHeap` and `CIntHeap` (src/utils/heap.cpp:49-297 and 299-512)

The two classes have the same text except for the key type (`CKey` / `int`), so the model is
generic in a linearly ordered key type `K`.
Not modelled: the statistics counter `percolates`, console output, `int` overflow.
-/

namespace Sbpl

/-- `struct HEAPELEMENT { AbstractSearchState* heapstate; CKey key; }`
(src/include/sbpl/utils/heap.h:41-45, 125-129).  A state pointer is modelled by its number. -/
structure HElem (K : Type) where
  st : Nat
  key : K

/-- `class CHeap` data (heap.h:49-58): `heap` array (1-based), `currentsize`, `allocated`,
plus the field `heapindex` of every `AbstractSearchState` (src/include/sbpl/config.h / mdp.h). -/
structure Heap (K : Type) where
  arr : Nat → HElem K
  size : Nat
  alloc : Nat
  idx : Nat → Nat

/-- Exceptions raised through `heaperror` (heap.cpp:35-40). -/
inductive HeapErr where
  | full | alreadyIn | notIn | empty
deriving DecidableEq, Repr

namespace Heap

variable {K : Type} [LinearOrder K]

/-- `#define HEAPSIZE 20000000` (heap.h:37). -/
def HEAPSIZE : Nat := 20000000
/-- `#define HEAPSIZE_INIT 5000` (heap.h:38). -/
def HEAPSIZE_INIT : Nat := 5000

/-- `CHeap::CHeap()` / `CIntHeap::CIntHeap(int)` (heap.cpp:52-60, 302-319); `d` is the
(indeterminate) initial array content.  A fresh state has `heapindex = 0`. -/
def mk0 (alloc : Nat) (d : HElem K) : Heap K :=
  { arr := fun _ => d, size := 0, alloc := alloc, idx := fun _ => 0 }

/-- `heap[hole] = e; heap[hole].heapstate->heapindex = hole;` -/
def place (h : Heap K) (hole : Nat) (e : HElem K) : Heap K :=
  { h with arr := upd h.arr hole e, idx := upd h.idx e.st hole }

/-- The child selected by `percolatedown` (heap.cpp:77-79). -/
def pickChild (h : Heap K) (hole : Nat) : Nat :=
  if 2 * hole ≠ h.size ∧ (h.arr (2 * hole + 1)).key < (h.arr (2 * hole)).key
  then 2 * hole + 1 else 2 * hole

/-- Loop of `percolatedown` (heap.cpp:76-90); `fuel` bounds the number of iterations (`currentsize`
iterations always suffice, see `percDown_spec`). -/
def percDownLoop (fuel : Nat) (h : Heap K) (hole : Nat) (tmp : HElem K) : Heap K :=
  match fuel with
  | 0 => h.place hole tmp
  | fuel + 1 =>
    if 2 * hole ≤ h.size then
      let child := h.pickChild hole
      if (h.arr child).key < tmp.key then
        percDownLoop fuel (h.place hole (h.arr child)) child tmp
      else h.place hole tmp
    else h.place hole tmp

/-- `percolatedown` (heap.cpp:71-91, 328-348). -/
def percDown (h : Heap K) (hole : Nat) (tmp : HElem K) : Heap K :=
  if h.size ≠ 0 then percDownLoop h.size h hole tmp else h

/-- Loop of `percolateup` (heap.cpp:96-102); `fuel` as above (`hole` iterations suffice). -/
def percUpLoop (fuel : Nat) (h : Heap K) (hole : Nat) (tmp : HElem K) : Heap K :=
  match fuel with
  | 0 => h.place hole tmp
  | fuel + 1 =>
    if hole > 1 ∧ tmp.key < (h.arr (hole / 2)).key then
      percUpLoop fuel (h.place hole (h.arr (hole / 2))) (hole / 2) tmp
    else h.place hole tmp

/-- `percolateup` (heap.cpp:93-104, 350-361). -/
def percUp (h : Heap K) (hole : Nat) (tmp : HElem K) : Heap K :=
  if h.size ≠ 0 then percUpLoop hole h hole tmp else h

/-- `percolateupordown` (heap.cpp:106-114, 363-371). -/
def percUpOrDown (h : Heap K) (hole : Nat) (tmp : HElem K) : Heap K :=
  if h.size ≠ 0 then
    if hole > 1 ∧ (h.arr (hole / 2)).key > tmp.key then h.percUp hole tmp
    else h.percDown hole tmp
  else h

/-- `emptyheap` (heap.cpp:116-119). -/
def isEmpty (h : Heap K) : Bool := h.size == 0
/-- `fullheap` (heap.cpp:121-124). -/
def isFull (h : Heap K) : Bool := h.size == HEAPSIZE - 1
/-- `inheap` (heap.cpp:126-129). -/
def inHeap (h : Heap K) (s : Nat) : Bool := h.idx s != 0

/-- `getkeyheap` (heap.cpp:131-136). -/
def getKey (h : Heap K) (s : Nat) : Except HeapErr K :=
  if h.idx s = 0 then .error .notIn else .ok (h.arr (h.idx s)).key

/-- The clearing loop of `makeemptyheap` (heap.cpp:142-143): resets `heapindex` of the states in
slots `1..n`. -/
def clearIdx (arr : Nat → HElem K) (idx : Nat → Nat) : Nat → (Nat → Nat)
  | 0 => idx
  | n + 1 => upd (clearIdx arr idx n) (arr (n + 1)).st 0

/-- `makeemptyheap` (heap.cpp:138-145). -/
def makeEmpty (h : Heap K) : Heap K :=
  { h with idx := clearIdx h.arr h.idx h.size, size := 0 }

/-- Loop `for (i = n; i > 0; i--) percolatedown(i, heap[i])` of `makeheap` (heap.cpp:151-153). -/
def makeHeapLoop (h : Heap K) : Nat → Heap K
  | 0 => h
  | n + 1 => makeHeapLoop (h.percDown (n + 1) (h.arr (n + 1))) n

/-- `makeheap` (heap.cpp:147-154). -/
def makeHeap (h : Heap K) : Heap K := makeHeapLoop h (h.size / 2)

/-- `growheap` (heap.cpp:156-176).  Copying slots `0..currentsize` into the new array is modelled by
keeping the array function (content of unused slots is indeterminate in both). -/
def grow (h : Heap K) : Heap K :=
  { h with alloc := if 2 * h.alloc > HEAPSIZE then HEAPSIZE else 2 * h.alloc }

/-- `sizecheck` (heap.cpp:178-185).  `currentsize == allocated - 1` on C `int`s is written
`currentsize + 1 = allocated` so that `allocated = 0` is not identified with `allocated = 1`. -/
def sizeCheck (h : Heap K) : Except HeapErr (Heap K) :=
  if h.isFull then .error .full
  else if h.size + 1 = h.alloc then .ok h.grow
  else .ok h

/-- `insertheap` (heap.cpp:187-201). -/
def insert (h : Heap K) (s : Nat) (k : K) : Except HeapErr (Heap K) :=
  match h.sizeCheck with
  | .error e => .error e
  | .ok h1 =>
    if h1.idx s ≠ 0 then .error .alreadyIn
    else
      let h2 := { h1 with size := h1.size + 1 }
      .ok (h2.percUp h2.size ⟨s, k⟩)

/-- `deleteheap` (heap.cpp:203-208). -/
def delete (h : Heap K) (s : Nat) : Except HeapErr (Heap K) :=
  if h.idx s = 0 then .error .notIn
  else
    let last := h.arr h.size
    let h1 := { h with size := h.size - 1 }
    let h2 := h1.percUpOrDown (h.idx s) last
    .ok { h2 with idx := upd h2.idx s 0 }

/-- `updateheap` (heap.cpp:210-217). -/
def update (h : Heap K) (s : Nat) (k : K) : Except HeapErr (Heap K) :=
  if h.idx s = 0 then .error .notIn
  else if (h.arr (h.idx s)).key ≠ k then
    let e : HElem K := ⟨(h.arr (h.idx s)).st, k⟩
    let h1 := { h with arr := upd h.arr (h.idx s) e }
    .ok (h1.percUpOrDown (h1.idx s) (h1.arr (h1.idx s)))
  else .ok h

/-- `insert_unsafe` (heap.cpp:219-236). -/
def insertUnsafe (h : Heap K) (s : Nat) (k : K) : Except HeapErr (Heap K) :=
  match h.sizeCheck with
  | .error e => .error e
  | .ok h1 =>
    if h1.idx s ≠ 0 then .error .alreadyIn
    else
      let h2 := { h1 with size := h1.size + 1 }
      .ok (h2.place h2.size ⟨s, k⟩)

/-- `deleteheap_unsafe` (heap.cpp:238-249). -/
def deleteUnsafe (h : Heap K) (s : Nat) : Except HeapErr (Heap K) :=
  if h.idx s = 0 then .error .notIn
  else
    let i := h.idx s
    let h1 := { h with arr := upd h.arr i (h.arr h.size), size := h.size - 1 }
    let h2 := { h1 with idx := upd h1.idx (h1.arr i).st i }
    .ok { h2 with idx := upd h2.idx s 0 }

/-- `updateheap_unsafe` (heap.cpp:251-259). -/
def updateUnsafe (h : Heap K) (s : Nat) (k : K) : Except HeapErr (Heap K) :=
  if h.idx s = 0 then .error .notIn
  else if (h.arr (h.idx s)).key ≠ k then
    .ok { h with arr := upd h.arr (h.idx s) ⟨(h.arr (h.idx s)).st, k⟩ }
  else .ok h

/-- `getminheap` (heap.cpp:261-275). -/
def getMin (h : Heap K) : Except HeapErr Nat :=
  if h.size = 0 then .error .empty else .ok (h.arr 1).st

/-- `getminkeyheap` (heap.cpp:277-283); `infKey` is `InfiniteKey()` / `INFINITECOST`. -/
def getMinKey (h : Heap K) (infKey : K) : K :=
  if h.size = 0 then infKey else (h.arr 1).key

/-- `deleteminheap` (heap.cpp:285-295). -/
def deleteMin (h : Heap K) : Except HeapErr (Nat × Heap K) :=
  if h.size = 0 then .error .empty
  else
    let s := (h.arr 1).st
    let h1 := { h with idx := upd h.idx s 0 }
    let last := h1.arr h1.size
    let h2 := { h1 with size := h1.size - 1 }
    .ok (s, h2.percDown 1 last)

end Heap
end Sbpl
