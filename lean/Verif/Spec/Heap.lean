import Verif.Model.HeapApi
/-!
# Specification of a priority queue with unique members

The abstract state is a finite map from states to keys, written as a list of pairs, and a flag saying
whether the unsafe operations have been used since the last `makeheap`.
-/

namespace Sbpl
namespace HeapSpec

variable {K : Type} [LinearOrder K]

/-- Abstract queue: the members with their keys, and whether `deletemin` may be relied upon. -/
structure Abs (K : Type) where
  m : List (Nat × K)
  clean : Bool

/-- the maximal number of members -/
def capacity : Nat := 19999999

def Has (m : List (Nat × K)) (s : Nat) : Prop := ∃ k, (s, k) ∈ m
def remove (m : List (Nat × K)) (s : Nat) : List (Nat × K) := m.filter (fun p => p.1 != s)
def setKey (m : List (Nat × K)) (s : Nat) (k : K) : List (Nat × K) :=
  m.map (fun p => if p.1 = s then (s, k) else p)
/-- `(s,k)` is a member with a smallest key. -/
def IsMin (m : List (Nat × K)) (s : Nat) (k : K) : Prop :=
  (s, k) ∈ m ∧ ∀ p ∈ m, k ≤ p.2

/-- `Step infKey a op out b`: in abstract state `a` the call `op` may be answered by `out`, leading to
`b`. -/
inductive Step (infKey : K) : Abs K → HOp K → HOut K → Abs K → Prop
  | insertFull {m c s k} : m.length = capacity → Step infKey ⟨m, c⟩ (.insert s k) (.err .full) ⟨m, c⟩
  | insertDup {m c s k} : m.length ≠ capacity → Has m s →
      Step infKey ⟨m, c⟩ (.insert s k) (.err .alreadyIn) ⟨m, c⟩
  | insert {m c s k} : m.length ≠ capacity → ¬ Has m s →
      Step infKey ⟨m, c⟩ (.insert s k) .done ⟨(s, k) :: m, c⟩
  | delete {m s} : Has m s → Step infKey ⟨m, true⟩ (.delete s) .done ⟨remove m s, true⟩
  | deleteNot {m c s} : ¬ Has m s → Step infKey ⟨m, c⟩ (.delete s) (.err .notIn) ⟨m, c⟩
  | update {m s k} : Has m s → Step infKey ⟨m, true⟩ (.update s k) .done ⟨setKey m s k, true⟩
  | updateNot {m c s k} : ¬ Has m s → Step infKey ⟨m, c⟩ (.update s k) (.err .notIn) ⟨m, c⟩
  | deleteMin {m s k} : IsMin m s k → Step infKey ⟨m, true⟩ .deleteMin (.state s) ⟨remove m s, true⟩
  | deleteMinEmpty {c} : Step infKey ⟨[], c⟩ .deleteMin (.err .empty) ⟨[], c⟩
  | getMin {m s k} : IsMin m s k → Step infKey ⟨m, true⟩ .getMin (.state s) ⟨m, true⟩
  | getMinEmpty {c} : Step infKey ⟨[], c⟩ .getMin (.err .empty) ⟨[], c⟩
  | getMinKey {m s k} : IsMin m s k → Step infKey ⟨m, true⟩ .getMinKey (.key k) ⟨m, true⟩
  | getMinKeyEmpty {c} : Step infKey ⟨[], c⟩ .getMinKey (.key infKey) ⟨[], c⟩
  | inHeap {m c s} {b : Bool} : (b = true ↔ Has m s) → Step infKey ⟨m, c⟩ (.inHeap s) (.bool b) ⟨m, c⟩
  | getKey {m c s k} : (s, k) ∈ m → Step infKey ⟨m, c⟩ (.getKey s) (.key k) ⟨m, c⟩
  | getKeyNot {m c s} : ¬ Has m s → Step infKey ⟨m, c⟩ (.getKey s) (.err .notIn) ⟨m, c⟩
  | isEmpty {m c} {b : Bool} : (b = true ↔ m = []) → Step infKey ⟨m, c⟩ .isEmpty (.bool b) ⟨m, c⟩
  | makeEmpty {m c} : Step infKey ⟨m, c⟩ .makeEmpty .done ⟨[], true⟩
  | insertUnsafeFull {m c s k} : m.length = capacity →
      Step infKey ⟨m, c⟩ (.insertUnsafe s k) (.err .full) ⟨m, c⟩
  | insertUnsafeDup {m c s k} : m.length ≠ capacity → Has m s →
      Step infKey ⟨m, c⟩ (.insertUnsafe s k) (.err .alreadyIn) ⟨m, c⟩
  | insertUnsafe {m c s k} : m.length ≠ capacity → ¬ Has m s →
      Step infKey ⟨m, c⟩ (.insertUnsafe s k) .done ⟨(s, k) :: m, false⟩
  | deleteUnsafe {m c s} : Has m s → Step infKey ⟨m, c⟩ (.deleteUnsafe s) .done ⟨remove m s, false⟩
  | deleteUnsafeNot {m c s} : ¬ Has m s →
      Step infKey ⟨m, c⟩ (.deleteUnsafe s) (.err .notIn) ⟨m, c⟩
  | updateUnsafe {m c s k} : Has m s →
      Step infKey ⟨m, c⟩ (.updateUnsafe s k) .done ⟨setKey m s k, false⟩
  | updateUnsafeNot {m c s k} : ¬ Has m s →
      Step infKey ⟨m, c⟩ (.updateUnsafe s k) (.err .notIn) ⟨m, c⟩
  | makeHeap {m c} : Step infKey ⟨m, c⟩ .makeHeap .done ⟨m, true⟩

/-- A history is legal if the order-dependent calls are not used between an unsafe operation and the
next `makeheap`/`makeemptyheap`. -/
def Legal : Bool → List (HOp K) → Prop
  | _, [] => True
  | c, .delete _ :: ops => c = true ∧ Legal c ops
  | c, .update _ _ :: ops => c = true ∧ Legal c ops
  | c, .deleteMin :: ops => c = true ∧ Legal c ops
  | c, .getMin :: ops => c = true ∧ Legal c ops
  | c, .getMinKey :: ops => c = true ∧ Legal c ops
  | _, .insertUnsafe _ _ :: ops => Legal false ops
  | _, .deleteUnsafe _ :: ops => Legal false ops
  | _, .updateUnsafe _ _ :: ops => Legal false ops
  | _, .makeHeap :: ops => Legal true ops
  | _, .makeEmpty :: ops => Legal true ops
  | c, _ :: ops => Legal c ops

/-- A sequence of calls answered according to the specification. -/
inductive Run (infKey : K) : Abs K → List (HOp K) → List (HOut K) → Abs K → Prop
  | nil {a} : Run infKey a [] [] a
  | cons {a op out b ops outs c} : Step infKey a op out b → Run infKey b ops outs c →
      Run infKey a (op :: ops) (out :: outs) c

/-- The members have distinct states. -/
def Distinct (m : List (Nat × K)) : Prop := (m.map Prod.fst).Nodup

end HeapSpec
end Sbpl
