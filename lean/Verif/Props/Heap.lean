import Verif.Proofs.HeapMem
import Verif.Model.Key
import Mathlib.Tactic.Linarith
/-!
# Properties C01-C04: the heaps

`Heap.mk0 alloc d` is a newly constructed heap whose array (of `alloc` slots) has arbitrary initial
content `d`; `Heap.run` executes a list of method calls and records what the caller observes.
`HeapSpec.Run` is the abstract priority queue of `Verif.Spec.Heap`.
-/

namespace Sbpl
namespace HeapProps
open HeapSpec

variable {K : Type} [LinearOrder K]

/-- **C01, C02, C03 (refinement).** For every key type, every initial allocation, and every legal
history of calls (successful or failing) on a new heap, the observations made are exactly those of an
abstract priority queue: membership and keys follow the history, wrong-membership calls are reported
and change nothing, `getmin`/`deletemin` answer with a member of smallest key and `deletemin` removes
exactly it, `makeheap` re-establishes this after any unsafe edits. -/
theorem heap_history_refines (infKey : K) (alloc : Nat) (d : HElem K) (a1 : 1 ≤ alloc)
    (a2 : alloc ≤ Heap.HEAPSIZE) (ops : List (HOp K)) (lg : Legal true ops) :
    ∃ b : Abs K, Run infKey ⟨[], true⟩ ops ((Heap.mk0 alloc d).run infKey ops).2 b ∧
      Distinct b.m := by
  obtain ⟨b, r, rel⟩ := Heap.run_refines infKey ops (Heap.rel_mk0 alloc d a1 a2) lg
  exact ⟨b, r, rel.nd⟩

/-- Observation list of a history followed by one more call. -/
theorem run_append (infKey : K) (h : Heap K) (ops : List (HOp K)) (op : HOp K) :
    h.run infKey (ops ++ [op]) =
      (((h.run infKey ops).1.step infKey op).1,
        (h.run infKey ops).2 ++ [((h.run infKey ops).1.step infKey op).2]) := by
  induction ops generalizing h with
  | nil => rfl
  | cons o ops ih => simp only [List.cons_append, Heap.run, ih]

/-- **C01.** After any legal history in which the last unsafe edit (if any) was followed by
`makeheap`, `deleteminheap` on a non-empty heap returns a state `s` whose reported key is `<=` the
reported key of every state that is in the heap, and afterwards exactly `s` has left the heap while all
other states keep their keys. -/
theorem heap_deletemin_is_min (infKey : K) (alloc : Nat) (d : HElem K) (a1 : 1 ≤ alloc)
    (a2 : alloc ≤ Heap.HEAPSIZE) (ops : List (HOp K)) (lg : Legal true (ops ++ [.deleteMin]))
    (ne : ((Heap.mk0 alloc d).run infKey ops).1.isEmpty = false) :
    ∃ s k h', ((Heap.mk0 alloc d).run infKey ops).1.deleteMin = .ok (s, h') ∧
      ((Heap.mk0 alloc d).run infKey ops).1.getMin = .ok s ∧
      ((Heap.mk0 alloc d).run infKey ops).1.getMinKey infKey = k ∧
      ((Heap.mk0 alloc d).run infKey ops).1.getKey s = .ok k ∧
      (∀ t kt, ((Heap.mk0 alloc d).run infKey ops).1.getKey t = .ok kt → k ≤ kt) ∧
      h'.getKey s = .error .notIn ∧
      (∀ t, t ≠ s → h'.getKey t = ((Heap.mk0 alloc d).run infKey ops).1.getKey t) := by
  -- legality of the prefix, and cleanliness at its end
  have pre : ∀ (c : Bool) (ops : List (HOp K)), Legal c (ops ++ [.deleteMin]) → Legal c ops := by
    intro c ops
    induction ops generalizing c with
    | nil => intro _; trivial
    | cons o ops ih =>
      intro l
      cases o <;> simp only [List.cons_append, Legal] at l ⊢ <;>
        first
          | exact ih _ l
          | exact ⟨l.1, ih _ l.2⟩
  obtain ⟨b, r, rel⟩ := Heap.run_refines infKey ops (Heap.rel_mk0 alloc d a1 a2) (pre true ops lg)
  have clean : ∀ (ops : List (HOp K)) (a b : Abs K) (outs : List (HOut K)),
      Legal a.clean (ops ++ [.deleteMin]) → Run infKey a ops outs b → b.clean = true := by
    intro ops
    induction ops with
    | nil => intro a b outs l r; cases r; exact l.1
    | cons o ops ih =>
      intro a b outs l r
      cases r with
      | cons s1 r1 => exact ih _ _ _ (Heap.legal_next l s1) r1
  have cl := clean ops ⟨[], true⟩ b _ lg r
  generalize ((Heap.mk0 alloc d).run infKey ops).1 = h at *
  have nz : h.size ≠ 0 := by simpa [Heap.isEmpty] using ne
  have ord := rel.ord cl
  cases x : h.deleteMin with
  | error e =>
    unfold Heap.deleteMin at x
    simp [nz] at x
  | ok q =>
    obtain ⟨s, h'⟩ := q
    obtain ⟨p1, p2, p3, p4, p5, k, p6, p7, p8⟩ := Heap.deleteMin_spec rel.bp ord x
    have gk : ∀ (h : Heap K) t kt, h.getKey t = .ok kt ↔ Heap.keyOf h t = some kt := by
      intro h t kt
      unfold Heap.getKey Heap.keyOf Heap.kat
      split <;> simp
    have gkn : ∀ (h : Heap K) t, h.getKey t =
        match Heap.keyOf h t with | some k => .ok k | none => .error .notIn := by
      intro h t
      unfold Heap.getKey Heap.keyOf Heap.kat
      split <;> simp
    have es : s = (h.arr 1).st := by
      unfold Heap.deleteMin at x
      simp only [nz, if_false, Except.ok.injEq, Prod.mk.injEq] at x
      exact x.1.symm
    refine ⟨s, k, h', rfl, ?_, ?_, (gk h s k).mpr p6, ?_, ?_, ?_⟩
    · simp [Heap.getMin, nz, es]
    · simp [Heap.getMinKey, nz, p7, Heap.kat]
    · intro t kt ht
      exact p8 t kt ((gk h t kt).mp ht)
    · rw [gkn, p2]; simp
    · intro t ht
      rw [gkn, gkn, p2, upd_other _ _ ht]

/-- **C03.** From any heap whose back-pointers agree with its array — whatever keys are stored, in
whatever order — `makeheap` keeps every state's key, keeps every non-member out, and afterwards
`getmin` returns a state with the smallest key. -/
theorem makeheap_repairs (h : Heap K)
    (fwd : ∀ i, 1 ≤ i → i ≤ h.size → h.idx (h.arr i).st = i)
    (bwd : ∀ s, h.idx s ≠ 0 → h.idx s ≤ h.size ∧ (h.arr (h.idx s)).st = s) :
    (∀ s, h.makeHeap.getKey s = h.getKey s) ∧
    (h.size ≠ 0 → ∃ s k, h.makeHeap.getMin = .ok s ∧ h.getKey s = .ok k ∧
      ∀ t kt, h.getKey t = .ok kt → k ≤ kt) := by
  have hb : Heap.BP h := ⟨fwd, bwd⟩
  obtain ⟨p1, p2, p3⟩ := Heap.makeHeap_spec hb
  have gkn : ∀ (h : Heap K) t, h.getKey t =
      match Heap.keyOf h t with | some k => .ok k | none => .error .notIn := by
    intro h t
    unfold Heap.getKey Heap.keyOf Heap.kat
    split <;> simp
  refine ⟨fun s => by rw [gkn, gkn, p2.key s], ?_⟩
  intro nz
  have nz' : h.makeHeap.size ≠ 0 := by rw [p2.size]; exact nz
  refine ⟨(h.makeHeap.arr 1).st, h.makeHeap.kat 1, by simp [Heap.getMin, nz'], ?_, ?_⟩
  · rw [gkn, ← p2.key, Heap.keyOf_slot p1 (Nat.le_refl _) (by omega)]
  · intro t kt ht
    apply Heap.min_le p1 p3 (s := t)
    rw [p2.key t]
    rw [gkn] at ht
    split at ht
    next e => rw [e]; cases ht; rfl
    next => cases ht

/-- **C04 (bounds).** For every legal history on a new heap with at least one slot,
`currentsize < allocated <= HEAPSIZE`. -/
theorem heap_bounds (infKey : K) (alloc : Nat) (d : HElem K) (a1 : 1 ≤ alloc)
    (a2 : alloc ≤ Heap.HEAPSIZE) (ops : List (HOp K)) (lg : Legal true ops) :
    ((Heap.mk0 alloc d).run infKey ops).1.size < ((Heap.mk0 alloc d).run infKey ops).1.alloc ∧
    ((Heap.mk0 alloc d).run infKey ops).1.alloc ≤ Heap.HEAPSIZE := by
  obtain ⟨b, _, rel⟩ := Heap.run_refines infKey ops (Heap.rel_mk0 alloc d a1 a2) lg
  exact ⟨rel.al.lt, rel.al.le⟩

/-- **C04 (no uninitialised or out-of-range read).** The observations of a legal history do not
depend on the initial content of the array. -/
theorem heap_reads_only_live_slots (infKey : K) (alloc : Nat) (d d' : HElem K) (a1 : 1 ≤ alloc)
    (a2 : alloc ≤ Heap.HEAPSIZE) (ops : List (HOp K)) (lg : Legal true ops) :
    ((Heap.mk0 alloc d).run infKey ops).2 = ((Heap.mk0 alloc d').run infKey ops).2 := by
  have key : ∀ (ops : List (HOp K)) (x y : Heap K) (a : Abs K), Heap.Rel x a → Heap.Live x y →
      Legal a.clean ops → (x.run infKey ops).2 = (y.run infKey ops).2 := by
    intro ops
    induction ops with
    | nil => intros; rfl
    | cons o ops ih =>
      intro x y a r l lg
      obtain ⟨e1, l1⟩ := Heap.live_step infKey r.bp l o
      obtain ⟨b, s1, r1⟩ := Heap.step_refines infKey r o (Heap.legal_cons lg)
      simp only [Heap.run]
      rw [e1, ih _ _ b r1 l1 (Heap.legal_next lg s1)]
  exact key ops _ _ ⟨[], true⟩ (Heap.rel_mk0 alloc d a1 a2)
    ⟨rfl, rfl, rfl, fun i _ i2 _ => by have i2 : i ≤ 0 := i2; omega⟩ lg

/-- **C04 (no out-of-range write).** During a legal history no call changes a slot at or beyond the
allocation in force after the call. -/
theorem heap_writes_in_range (infKey : K) (alloc : Nat) (d : HElem K) (a1 : 1 ≤ alloc)
    (a2 : alloc ≤ Heap.HEAPSIZE) (ops : List (HOp K)) (lg : Legal true ops) (op : HOp K) (i : Nat)
    (hi : (((Heap.mk0 alloc d).run infKey ops).1.step infKey op).1.alloc ≤ i) :
    (((Heap.mk0 alloc d).run infKey ops).1.step infKey op).1.arr i =
      ((Heap.mk0 alloc d).run infKey ops).1.arr i := by
  obtain ⟨b, _, rel⟩ := Heap.run_refines infKey ops (Heap.rel_mk0 alloc d a1 a2) lg
  exact Heap.frame_step infKey rel.bp rel.al op i hi

/-- **C04 (fullness).** After any legal history an insertion of an absent state is refused exactly if
`HEAPSIZE - 1` states are stored. -/
theorem heap_insert_fails_iff_full (infKey : K) (alloc : Nat) (d : HElem K) (a1 : 1 ≤ alloc)
    (a2 : alloc ≤ Heap.HEAPSIZE) (ops : List (HOp K)) (lg : Legal true ops) (s : Nat) (k : K)
    (absent : ((Heap.mk0 alloc d).run infKey ops).1.inHeap s = false) :
    ∃ b, Run infKey ⟨[], true⟩ ops ((Heap.mk0 alloc d).run infKey ops).2 b ∧
      ((¬ ∃ h', ((Heap.mk0 alloc d).run infKey ops).1.insert s k = .ok h') ↔
        b.m.length = capacity) := by
  obtain ⟨b, r, rel⟩ := Heap.run_refines infKey ops (Heap.rel_mk0 alloc d a1 a2) lg
  refine ⟨b, r, ?_⟩
  rw [Heap.insert_ok_iff]
  have : Heap.keyOf ((Heap.mk0 alloc d).run infKey ops).1 s = none := by
    simpa [Heap.keyOf, Heap.inHeap] using absent
  rw [rel.len]
  simp only [this, and_true, not_not, ne_eq]
  exact Iff.rfl

/-- **C04 violated at initial size 0.** `CIntHeap(0)` (heap.cpp:311-319): the first insertion is
accepted, and it writes slot 1 of an array of 0 slots. -/
theorem intheap_size_zero_overflows (d : HElem Int) :
    ∃ h', (Heap.mk0 0 d).insert 7 5 = .ok h' ∧ h'.alloc = 0 ∧ h'.size = 1 ∧
      (h'.arr 1).st = 7 ∧ (h'.arr 1).key = 5 := by
  refine ⟨_, rfl, rfl, rfl, ?_, ?_⟩ <;> rfl

/-! Concrete instances meeting the hypotheses. -/

/-- a non-trivial legal history -/
def sampleOps : List (HOp Int) :=
  [.insert 1 5, .insert 2 3, .insert 3 9, .insert 1 4, .update 3 1, .deleteMin, .delete 2,
   .insertUnsafe 5 8, .updateUnsafe 1 10, .makeHeap, .deleteMin, .isEmpty]

example : Legal true sampleOps := by simp [sampleOps, Legal]
example : Legal true (sampleOps ++ [.deleteMin]) := by simp [sampleOps, Legal]
example : ((Heap.mk0 2 ⟨0, (0 : Int)⟩).run 100 sampleOps).1.isEmpty = false := by decide +kernel
/-- the answers of that history: 3 (key 1) leaves first, later 5 (key 8) before 1 (key 10) -/
example : ((Heap.mk0 2 ⟨0, (0 : Int)⟩).run 100 sampleOps).2.map
    (fun o => match o with | .state s => some s | _ => none) =
    [none, none, none, none, none, some 3, none, none, none, none, some 5, none] := by decide +kernel

end HeapProps
end Sbpl
