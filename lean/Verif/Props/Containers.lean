import Verif.Proofs.CList
import Verif.Proofs.Fifo
import Verif.Model.Key
/-!
# Properties C05 (CKey), C06 (CList), C07 (sbpl_fifo)
-/

namespace Sbpl
namespace ContainerProps

/-- **C05.** The six comparison operators of `CKey` are the lexicographic order on the two
components. -/
theorem ckey_lexicographic (a b : CKey) :
    (CKey.ltB a b = true ↔ a.k0 < b.k0 ∨ (a.k0 = b.k0 ∧ a.k1 < b.k1)) ∧
    (CKey.gtB a b = true ↔ b.k0 < a.k0 ∨ (a.k0 = b.k0 ∧ b.k1 < a.k1)) ∧
    (CKey.leB a b = true ↔ a.k0 < b.k0 ∨ (a.k0 = b.k0 ∧ a.k1 ≤ b.k1)) ∧
    (CKey.geB a b = true ↔ b.k0 < a.k0 ∨ (a.k0 = b.k0 ∧ b.k1 ≤ a.k1)) ∧
    (CKey.eqB a b = true ↔ a = b) ∧ (CKey.neB a b = true ↔ a ≠ b) := by
  refine ⟨?_, ?_, ?_, ?_, ?_, ?_⟩
  · simp [CKey.ltB]
  · simp [CKey.gtB]
  · simp only [CKey.leB, CKey.gtB, Bool.not_eq_true', Bool.or_eq_false_iff, Bool.and_eq_false_iff,
      decide_eq_false_iff_not]; omega
  · simp only [CKey.geB, CKey.ltB, Bool.not_eq_true', Bool.or_eq_false_iff, Bool.and_eq_false_iff,
      decide_eq_false_iff_not]; omega
  · simp [CKey.eqB, CKey.ext_iff]
  · simp only [CKey.neB, CKey.eqB, Bool.not_eq_true', Bool.and_eq_false_iff, decide_eq_false_iff_not,
      ne_eq, CKey.ext_iff]; omega

/-- **C05.** They form one strict total order and are mutually coherent. -/
theorem ckey_total_order :
    (∀ a : CKey, CKey.ltB a a = false) ∧
    (∀ a b c : CKey, CKey.ltB a b = true → CKey.ltB b c = true → CKey.ltB a c = true) ∧
    (∀ a b : CKey, CKey.ltB a b = true ∨ CKey.eqB a b = true ∨ CKey.ltB b a = true) ∧
    (∀ a b : CKey, CKey.gtB a b = CKey.ltB b a) ∧
    (∀ a b : CKey, CKey.geB a b = CKey.leB b a) ∧
    (∀ a b : CKey, CKey.leB a b = (CKey.ltB a b || CKey.eqB a b)) ∧
    (∀ a b : CKey, CKey.geB a b = !CKey.ltB a b) ∧
    (∀ a b : CKey, CKey.neB a b = !CKey.eqB a b) := by
  have L := fun a b => (ckey_lexicographic a b)
  refine ⟨?_, ?_, ?_, ?_, ?_, ?_, fun _ _ => rfl, fun _ _ => rfl⟩
  · intro a
    rw [Bool.eq_false_iff, ne_eq, (L a a).1]; omega
  · intro a b c
    rw [(L a b).1, (L b c).1, (L a c).1]; omega
  · intro a b
    rw [(L a b).1, (L a b).2.2.2.2.1, (L b a).1, CKey.ext_iff]; omega
  · intro a b
    rw [Bool.eq_iff_iff, (L a b).2.1, (L b a).1]; omega
  · intro a b
    rw [Bool.eq_iff_iff, (L a b).2.2.2.1, (L b a).2.2.1]; omega
  · intro a b
    rw [Bool.eq_iff_iff, Bool.or_eq_true, (L a b).2.2.1, (L a b).1, (L a b).2.2.2.2.1, CKey.ext_iff]
    omega

example : CKey.ltB ⟨3, 9⟩ ⟨4, 0⟩ = true ∧ CKey.ltB ⟨4, 0⟩ ⟨4, 1⟩ = true := by decide

/-- **C06.** Every history of calls on a new `CList` gives exactly the answers of the ordered set
(most recent insertion first); in particular no null or freed element is ever dereferenced except by
`getnext` on a non-member. -/
theorem clist_history_refines (ops : List LOp) :
    (CList.mk0.run ops).2 = (ListSpec.run [] ops).2 := (CList.run_refines ops CList.rel_mk0).1

/-- **C06.** The members are distinct after every history, `currentsize` is their number. -/
theorem clist_set (ops : List LOp) :
    (ListSpec.run [] ops).1.Nodup ∧ (CList.mk0.run ops).1.size = (ListSpec.run [] ops).1.length := by
  obtain ⟨_, ⟨r⟩⟩ := CList.run_refines ops CList.rel_mk0
  exact ⟨r.nds, r.size⟩

/-- Following `getnext` from `s`, at most `n` steps. -/
def traverse (l : CList) : Nat → Option Nat → List Nat
  | 0, _ => []
  | _, none => []
  | n + 1, some s =>
    match l.getNext s with
    | .ok t => s :: traverse l n t
    | .error _ => [s]

/-- **C06.** After every history, following `getfirst`/`getnext` enumerates exactly the members, each
once, most recent first. -/
theorem clist_traversal (ops : List LOp) (f : Option Nat)
    (hf : (CList.mk0.run ops).1.getFirst = .ok f) :
    traverse (CList.mk0.run ops).1 ((CList.mk0.run ops).1.size + 1) f = (ListSpec.run [] ops).1 := by
  obtain ⟨_, ⟨r⟩⟩ := CList.run_refines ops CList.rel_mk0
  generalize (ListSpec.run [] ops).1 = m at *
  generalize (CList.mk0.run ops).1 = l at *
  have h1 := (CList.step_refines r .getFirst).1
  simp only [CList.step, hf, CList.liftS, ListSpec.step, LOut.state.injEq] at h1
  have key : ∀ (post : List Nat) (pre : List Nat) (n : Nat), m = pre ++ post → post.length < n →
      traverse l n post.head? = post := by
    intro post
    induction post with
    | nil => intro pre n _ hn; cases n <;> simp [traverse]
    | cons s post ih =>
      intro pre n e hn
      cases n with
      | zero => omega
      | succ n =>
        have hs : s ∈ m := by rw [e]; simp
        have g := CList.getNext_rel r s hs
        have af : ListSpec.after m s = post.head? := by
          have nd := r.nds
          rw [e] at nd
          have nsp : s ∉ pre := by
            rw [List.nodup_append] at nd
            exact fun h => nd.2.2 s h s (List.mem_cons_self ..) rfl
          rw [ListSpec.after, e, List.dropWhile_append]
          have : List.dropWhile (fun x => x != s) pre = [] := by
            clear e nd ih g hs
            induction pre with
            | nil => rfl
            | cons x P ih =>
              simp only [List.mem_cons, not_or] at nsp
              have : (x != s) = true := by simp [Ne.symm nsp.1]
              simp [List.dropWhile, this, ih nsp.2]
          simp [this]
        rw [af] at g
        simp only [List.head?_cons, traverse, g]
        rw [ih (pre ++ [s]) n (by simp [e]) (by simpa using hn)]
  rw [h1, r.size]
  exact key m [] _ rfl (by omega)

/-- a sample history: duplicates refused, middle/first/last removal -/
def sampleL : List LOp :=
  [.insert 4, .insert 7, .insert 9, .insert 7, .remove 7, .getFirst, .getNext 9, .getLast, .remove 9,
   .remove 9, .inList 4, .makeEmpty, .isEmpty]

example : (CList.mk0.run sampleL).2 =
    [.done, .done, .done, .err .alreadyIn, .done, .state (some 9), .state (some 4), .state (some 4),
     .done, .err .notIn, .bool true, .done, .bool true] := by decide +kernel

/-- **C07.** Every history on a new fifo of size `n ≥ 1` gives exactly the answers of a first-in
first-out queue of capacity `n - 1`; a refused call changes nothing. -/
theorem fifo_history_refines {α : Type} (n : Nat) (hn : 1 ≤ n) (d : α) (ops : List (QOp α)) :
    ((Fifo.mk0 n d).run ops).2 = (FifoSpec.run (n - 1) [] ops).2 :=
  (Fifo.Rel.run ops (Fifo.Rel.mk0 n hn d)).1

/-- **C07.** The read and write positions always lie inside the array. -/
theorem fifo_in_range {α : Type} (n : Nat) (hn : 1 ≤ n) (d : α) (ops : List (QOp α)) :
    ((Fifo.mk0 n d).run ops).1.head < n ∧ ((Fifo.mk0 n d).run ops).1.tail < n :=
  (Fifo.Rel.run ops (Fifo.Rel.mk0 n hn d)).2.inRange

/-- sample: wrap-around of a 3-slot fifo -/
example : ((Fifo.mk0 3 0).run [.insert 1, .insert 2, .insert 3, .remove, .insert 4, .remove, .remove,
    .remove]).2.map (fun o => match o with | .val v => v | _ => none) =
    [none, none, none, some 1, none, some 2, some 4, none] := by decide +kernel

end ContainerProps
end Sbpl
