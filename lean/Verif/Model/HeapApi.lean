import Verif.Model.Heap
/-!
# The public interface of `CHeap` / `CIntHeap` as a state machine

Every method call of heap.h:60-96 (and 141-171) is an operation; a thrown exception is an output and
the object keeps the state it had when the exception was thrown.
-/

namespace Sbpl

/-- One method call on a heap (src/include/sbpl/utils/heap.h:60-96). -/
inductive HOp (K : Type) where
  | insert (s : Nat) (k : K)
  | delete (s : Nat)
  | update (s : Nat) (k : K)
  | deleteMin
  | getMin
  | getMinKey
  | inHeap (s : Nat)
  | getKey (s : Nat)
  | isEmpty
  | makeEmpty
  | insertUnsafe (s : Nat) (k : K)
  | deleteUnsafe (s : Nat)
  | updateUnsafe (s : Nat) (k : K)
  | makeHeap

/-- What the caller observes. -/
inductive HOut (K : Type) where
  | done
  | state (s : Nat)
  | key (k : K)
  | bool (b : Bool)
  | err (e : HeapErr)

namespace Heap
variable {K : Type} [LinearOrder K]

/-- Effect of a call that returns nothing or throws; `onErr` is the object state at the throw. -/
def lift (onErr : Heap K) : Except HeapErr (Heap K) → Heap K × HOut K
  | .ok h => (h, .done)
  | .error e => (onErr, .err e)

/-- Object state left behind by `sizecheck` (heap.cpp:178-185) when a later check throws. -/
def afterSizeCheck (h : Heap K) : Heap K :=
  match h.sizeCheck with
  | .ok h1 => h1
  | .error _ => h

/-- One call (heap.cpp:116-295); `infKey` is the key returned by `getminkeyheap` on an empty heap. -/
def step (infKey : K) (h : Heap K) : HOp K → Heap K × HOut K
  | .insert s k => lift h.afterSizeCheck (h.insert s k)
  | .delete s => lift h (h.delete s)
  | .update s k => lift h (h.update s k)
  | .deleteMin =>
    match h.deleteMin with
    | .ok (s, h') => (h', .state s)
    | .error e => (h, .err e)
  | .getMin =>
    match h.getMin with
    | .ok s => (h, .state s)
    | .error e => (h, .err e)
  | .getMinKey => (h, .key (h.getMinKey infKey))
  | .inHeap s => (h, .bool (h.inHeap s))
  | .getKey s =>
    match h.getKey s with
    | .ok k => (h, .key k)
    | .error e => (h, .err e)
  | .isEmpty => (h, .bool h.isEmpty)
  | .makeEmpty => (h.makeEmpty, .done)
  | .insertUnsafe s k => lift h.afterSizeCheck (h.insertUnsafe s k)
  | .deleteUnsafe s => lift h (h.deleteUnsafe s)
  | .updateUnsafe s k => lift h (h.updateUnsafe s k)
  | .makeHeap => (h.makeHeap, .done)

/-- A history of calls with the observations made. -/
def run (infKey : K) (h : Heap K) : List (HOp K) → Heap K × List (HOut K)
  | [] => (h, [])
  | op :: ops =>
    let r := h.step infKey op
    let rest := run infKey r.1 ops
    (rest.1, r.2 :: rest.2)

end Heap
end Sbpl
