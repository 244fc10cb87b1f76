import Verif.Proofs.HeapOps
import Verif.Spec.Heap
/-!
# The heap model refines the priority-queue specification
-/
set_option linter.unusedSectionVars false

namespace Sbpl
namespace Heap
open HeapSpec

variable {K : Type} [LinearOrder K]

/-- Concrete and abstract state agree. -/
structure Rel (h : Heap K) (a : Abs K) : Prop where
  bp : BP h
  al : AllocOk h
  ord : a.clean = true → Ordered h
  mem : ∀ s k, keyOf h s = some k ↔ (s, k) ∈ a.m
  len : a.m.length = h.size
  nd : Distinct a.m

theorem distinct_unique {m : List (Nat × K)} (d : Distinct m) {s : Nat} {k k' : K}
    (a : (s, k) ∈ m) (b : (s, k') ∈ m) : k = k' := by
  induction m with
  | nil => cases a
  | cons p m ih =>
    simp only [Distinct, List.map_cons, List.nodup_cons] at d
    obtain ⟨d1, d2⟩ := d
    rcases List.mem_cons.mp a with a | a <;> rcases List.mem_cons.mp b with b | b
    · rw [← a] at b; exact (Prod.mk.inj b).2.symm
    · exact absurd (List.mem_map.mpr ⟨_, b, by rw [← a]⟩) d1
    · exact absurd (List.mem_map.mpr ⟨_, a, by rw [← b]⟩) d1
    · exact ih d2 a b

theorem remove_length {m : List (Nat × K)} (d : Distinct m) {s : Nat} (a : Has m s) :
    (remove m s).length + 1 = m.length := by
  induction m with
  | nil => obtain ⟨k, hk⟩ := a; cases hk
  | cons p m ih =>
    simp only [Distinct, List.map_cons, List.nodup_cons] at d
    obtain ⟨d1, d2⟩ := d
    obtain ⟨k, hk⟩ := a
    by_cases e : p.1 = s
    · have : remove m s = m := by
        apply List.filter_eq_self.mpr
        intro q hq
        simp only [bne_iff_ne, ne_eq]
        intro c
        exact d1 (List.mem_map.mpr ⟨q, hq, by rw [c, e]⟩)
      simp only [remove, List.filter_cons, e] at *
      simp [this]
    · have hk' : (s, k) ∈ m := by
        rcases List.mem_cons.mp hk with c | c
        · rw [← c] at e; exact absurd rfl e
        · exact c
      have := ih d2 ⟨k, hk'⟩
      simp only [remove, List.filter_cons, bne_iff_ne, ne_eq, e, not_false_eq_true, if_true,
        List.length_cons] at *
      omega

theorem mem_remove {m : List (Nat × K)} {s t : Nat} {k : K} :
    (t, k) ∈ remove m s ↔ (t, k) ∈ m ∧ t ≠ s := by
  simp [remove]

theorem distinct_remove {m : List (Nat × K)} (d : Distinct m) (s : Nat) : Distinct (remove m s) := by
  unfold Distinct remove
  apply List.Nodup.sublist _ d
  exact List.Sublist.map _ List.filter_sublist

theorem setKey_fst (m : List (Nat × K)) (s : Nat) (k : K) :
    (setKey m s k).map Prod.fst = m.map Prod.fst := by
  unfold setKey
  rw [List.map_map]
  apply List.map_congr_left
  intro p _
  simp only [Function.comp]
  split
  next e => exact e.symm
  next => rfl

theorem mem_setKey {m : List (Nat × K)} {s t : Nat} {k k' : K} (hs : Has m s) :
    (t, k') ∈ setKey m s k ↔ (if t = s then k' = k else (t, k') ∈ m) := by
  unfold setKey
  rw [List.mem_map]
  constructor
  · rintro ⟨⟨u, x⟩, h1, h2⟩
    simp only at h2
    split at h2
    next e =>
      cases h2; simp
    next e =>
      cases h2
      simp [e, h1]
  · intro h
    split at h
    next e =>
      obtain ⟨x, hx⟩ := hs
      refine ⟨(s, x), hx, ?_⟩
      simp [e, h]
    next e =>
      exact ⟨(t, k'), h, by simp [e]⟩

theorem Rel.has {h : Heap K} {a : Abs K} (r : Rel h a) (s : Nat) :
    Has a.m s ↔ keyOf h s ≠ none := by
  constructor
  · rintro ⟨k, hk⟩
    rw [(r.mem s k).mpr hk]; simp
  · intro c
    cases e : keyOf h s with
    | none => exact absurd e c
    | some k => exact ⟨k, (r.mem s k).mp e⟩

theorem Rel.insertLike {h h' : Heap K} {m : List (Nat × K)} {c c' : Bool} {s : Nat} {k : K}
    (r : Rel h ⟨m, c⟩) (b : BP h') (al : AllocOk h')
    (ke : keyOf h' = upd (keyOf h) s (some k))
    (sz : h'.size = h.size + 1) (nn : keyOf h s = none) (o : c' = true → Ordered h') :
    Rel h' ⟨(s, k) :: m, c'⟩ := by
  have nh : ¬ Has m s := by
    intro hh
    exact (r.has s).mp hh nn
  refine ⟨b, al, o, ?_, ?_, ?_⟩
  · intro t x
    rw [ke, List.mem_cons, Prod.mk.injEq]
    have := r.mem t x
    by_cases e : t = s
    · subst e
      simp only [upd_same, Option.some.injEq, true_and]
      constructor
      · intro w; exact Or.inl w.symm
      · rintro (w | w)
        · exact w.symm
        · exact absurd ⟨x, w⟩ nh
    · rw [upd_other _ _ e, this]; simp [e]
  · simp only [List.length_cons]
    rw [sz, r.len]
  · simp only [Distinct, List.map_cons, List.nodup_cons]
    refine ⟨?_, r.nd⟩
    intro w
    obtain ⟨p, hp, e⟩ := List.mem_map.mp w
    exact nh ⟨p.2, by rw [← e]; exact hp⟩

theorem Rel.removeLike {h h' : Heap K} {m : List (Nat × K)} {c c' : Bool} {s : Nat}
    (r : Rel h ⟨m, c⟩) (b : BP h') (al : AllocOk h')
    (ke : keyOf h' = upd (keyOf h) s none)
    (sz : h'.size + 1 = h.size) (nn : keyOf h s ≠ none) (o : c' = true → Ordered h') :
    Rel h' ⟨remove m s, c'⟩ := by
  have nh : Has m s := (r.has s).mpr nn
  refine ⟨b, al, o, ?_, ?_, distinct_remove r.nd s⟩
  · intro t x
    rw [ke, mem_remove]
    have := r.mem t x
    by_cases e : t = s
    · subst e; simp
    · rw [upd_other _ _ e, this]; simp [e]
  · have := remove_length r.nd nh
    have := r.len
    simp only at *
    omega

theorem Rel.updateLike {h h' : Heap K} {m : List (Nat × K)} {c c' : Bool} {s : Nat} {k : K}
    (r : Rel h ⟨m, c⟩) (b : BP h') (al : AllocOk h')
    (ke : keyOf h' = upd (keyOf h) s (some k))
    (sz : h'.size = h.size) (nn : keyOf h s ≠ none) (o : c' = true → Ordered h') :
    Rel h' ⟨setKey m s k, c'⟩ := by
  have nh : Has m s := (r.has s).mpr nn
  refine ⟨b, al, o, ?_, ?_, ?_⟩
  · intro t x
    rw [ke, mem_setKey nh]
    have := r.mem t x
    by_cases e : t = s
    · subst e; simp [eq_comm]
    · rw [upd_other _ _ e, this]; simp [e]
  · simp only [setKey, List.length_map]
    rw [sz]; exact r.len
  · have := r.nd
    simp only [Distinct] at *
    rw [setKey_fst]; exact this

theorem afterSizeCheck_rel {h : Heap K} {a : Abs K} (r : Rel h a) : Rel h.afterSizeCheck a := by
  unfold afterSizeCheck
  split
  next h1 e =>
    obtain ⟨ea, es, ei, ek, _, al⟩ := sizeCheck_spec e
    refine ⟨⟨?_, ?_⟩, (al r.al).1, ?_, ?_, ?_, r.nd⟩
    · rw [ea, es, ei]; exact r.bp.fwd
    · rw [ea, es, ei]; exact r.bp.bwd
    · intro c
      have := r.ord c
      intro i x y z
      have := this i x (by rw [← es]; exact y) z
      simp only [kat, ea] at this ⊢
      exact this
    · rw [ek]; exact r.mem
    · rw [es]; exact r.len
  next => exact r

theorem insert_err {h : Heap K} {s : Nat} {k : K} {e : HeapErr} (x : h.insert s k = .error e) :
    (e = .full ∧ h.size = HEAPSIZE - 1) ∨
    (e = .alreadyIn ∧ h.size ≠ HEAPSIZE - 1 ∧ keyOf h s ≠ none) := by
  unfold insert sizeCheck isFull grow at x
  by_cases a : h.size = HEAPSIZE - 1
  · left; simp [a] at x; exact ⟨x.symm, a⟩
  · right
    have a' : (h.size == HEAPSIZE - 1) = false := by simp [a]
    simp only [a', ne_eq, a, not_false_eq_true, true_and] at x ⊢
    by_cases b : h.size + 1 = h.alloc <;> by_cases c : h.idx s = 0 <;>
      simp [b, c] at x
    all_goals exact ⟨x.symm, by simp [keyOf, c]⟩

theorem insertUnsafe_err {h : Heap K} {s : Nat} {k : K} {e : HeapErr}
    (x : h.insertUnsafe s k = .error e) :
    (e = .full ∧ h.size = HEAPSIZE - 1) ∨
    (e = .alreadyIn ∧ h.size ≠ HEAPSIZE - 1 ∧ keyOf h s ≠ none) := by
  unfold insertUnsafe sizeCheck isFull grow at x
  by_cases a : h.size = HEAPSIZE - 1
  · left; simp [a] at x; exact ⟨x.symm, a⟩
  · right
    have a' : (h.size == HEAPSIZE - 1) = false := by simp [a]
    simp only [a', ne_eq, a, not_false_eq_true, true_and] at x ⊢
    by_cases b : h.size + 1 = h.alloc <;> by_cases c : h.idx s = 0 <;>
      simp [b, c] at x
    all_goals exact ⟨x.symm, by simp [keyOf, c]⟩

theorem insert_no_full {h h' : Heap K} {s : Nat} {k : K} (x : h.insert s k = .ok h') :
    h.size ≠ HEAPSIZE - 1 := ((insert_ok_iff h s k).mp ⟨h', x⟩).1

theorem insertUnsafe_no_full {h h' : Heap K} {s : Nat} {k : K} (x : h.insertUnsafe s k = .ok h') :
    h.size ≠ HEAPSIZE - 1 := by
  unfold insertUnsafe at x
  split at x
  · cases x
  next h1 sc => exact (sizeCheck_spec sc).2.2.2.2.1

theorem cap_eq : HEAPSIZE - 1 = capacity := rfl

/-- condition under which a single call is legal -/
def legal1 (c : Bool) : HOp K → Prop
  | .delete _ | .update _ _ | .deleteMin | .getMin | .getMinKey => c = true
  | _ => True

theorem rel_root {h : Heap K} {m : List (Nat × K)} (r : Rel h ⟨m, true⟩) (nz : h.size ≠ 0) :
    IsMin m (h.arr 1).st (h.kat 1) := by
  constructor
  · exact (r.mem _ _).mp (keyOf_slot r.bp (Nat.le_refl _) (by omega))
  · rintro ⟨t, k⟩ hp
    exact min_le r.bp (r.ord rfl) ((r.mem t k).mpr hp)

theorem rel_empty {h : Heap K} {m : List (Nat × K)} {c : Bool} (r : Rel h ⟨m, c⟩) (z : h.size = 0) :
    m = [] := by
  have := r.len
  rw [z] at this
  exact List.length_eq_zero_iff.mp this

theorem step_refines (infKey : K) {h : Heap K} {a : Abs K} (r : Rel h a) (op : HOp K)
    (lg : legal1 a.clean op) :
    ∃ b, Step infKey a op (h.step infKey op).2 b ∧ Rel (h.step infKey op).1 b := by
  obtain ⟨m, c⟩ := a
  have len : m.length = h.size := r.len
  have has : ∀ s, Has m s ↔ keyOf h s ≠ none := r.has
  cases op with
  | insert s k =>
    simp only [step]
    cases x : h.insert s k with
    | ok h' =>
      obtain ⟨p1, p2, p3, p4, p5, p6⟩ := insert_spec r.bp x
      refine ⟨⟨(s, k) :: m, c⟩, ?_, r.insertLike p1 (p5 r.al) p2 p3 p6 (fun cc => p4 (r.ord cc))⟩
      apply Step.insert
      · rw [len]; exact insert_no_full x
      · rw [has, p6]; simp
    | error e =>
      refine ⟨⟨m, c⟩, ?_, afterSizeCheck_rel r⟩
      rcases insert_err x with ⟨rfl, f⟩ | ⟨rfl, f, g⟩
      · apply Step.insertFull; rw [len]; exact f
      · apply Step.insertDup
        · rw [len]; exact f
        · rw [has]; exact g
  | delete s =>
    have lg : c = true := lg
    subst lg
    simp only [step]
    cases x : h.delete s with
    | ok h' =>
      obtain ⟨p1, p2, p3, p4, p5, p6⟩ := delete_spec r.bp (r.ord rfl) x
      exact ⟨_, Step.delete ((has s).mpr p6), r.removeLike p1 (p5 r.al) p2 p3 p6 (fun _ => p4)⟩
    | error e =>
      have : keyOf h s = none ∧ e = .notIn := by
        unfold delete at x
        split at x
        next z => exact ⟨by simp [keyOf, z], (Except.error.inj x).symm⟩
        · cases x
      obtain ⟨p, rfl⟩ := this
      exact ⟨_, Step.deleteNot (by rw [has]; simp [p]), r⟩
  | update s k =>
    have lg : c = true := lg
    subst lg
    simp only [step]
    cases x : h.update s k with
    | ok h' =>
      obtain ⟨p1, p2, p3, p4, p5, p6⟩ := update_spec r.bp (r.ord rfl) x
      exact ⟨_, Step.update ((has s).mpr p6), r.updateLike p1 (p5 r.al) p2 p3 p6 (fun _ => p4)⟩
    | error e =>
      have : keyOf h s = none ∧ e = .notIn := by
        unfold update at x
        split at x
        next z => exact ⟨by simp [keyOf, z], (Except.error.inj x).symm⟩
        · split at x <;> cases x
      obtain ⟨p, rfl⟩ := this
      exact ⟨_, Step.updateNot (by rw [has]; simp [p]), r⟩
  | deleteMin =>
    have lg : c = true := lg
    subst lg
    simp only [step]
    cases x : h.deleteMin with
    | ok q =>
      obtain ⟨s, h'⟩ := q
      obtain ⟨p1, p2, p3, p4, p5, k, p6, p7, p8⟩ := deleteMin_spec r.bp (r.ord rfl) x
      refine ⟨_, Step.deleteMin (k := k) ⟨(r.mem s k).mp p6, ?_⟩,
        r.removeLike p1 (p5 r.al) p2 p3 (by simp [p6]) (fun _ => p4)⟩
      rintro ⟨t, k'⟩ ht
      exact p8 t k' ((r.mem t k').mpr ht)
    | error e =>
      unfold deleteMin at x
      split at x
      next z =>
        cases x
        have := rel_empty r z
        subst this
        exact ⟨_, Step.deleteMinEmpty, r⟩
      · cases x
  | getMin =>
    have lg : c = true := lg
    subst lg
    simp only [step, getMin]
    by_cases z : h.size = 0
    · simp only [z, if_true]
      have := rel_empty r z
      subst this
      exact ⟨_, Step.getMinEmpty, r⟩
    · simp only [z, if_false]
      exact ⟨_, Step.getMin (rel_root r z), r⟩
  | getMinKey =>
    have lg : c = true := lg
    subst lg
    simp only [step, getMinKey]
    by_cases z : h.size = 0
    · simp only [z, if_true]
      have := rel_empty r z
      subst this
      exact ⟨_, Step.getMinKeyEmpty, r⟩
    · simp only [z, if_false]
      exact ⟨_, Step.getMinKey (rel_root r z), r⟩
  | inHeap s =>
    refine ⟨_, Step.inHeap ?_, r⟩
    rw [has]
    simp [inHeap, keyOf]
  | getKey s =>
    simp only [step, getKey]
    by_cases z : h.idx s = 0
    · simp only [z, if_true]
      exact ⟨_, Step.getKeyNot (by rw [has]; simp [keyOf, z]), r⟩
    · simp only [z, if_false]
      exact ⟨_, Step.getKey ((r.mem s _).mp (by simp [keyOf, z, kat])), r⟩
  | isEmpty =>
    refine ⟨_, Step.isEmpty ?_, r⟩
    simp only [isEmpty, beq_iff_eq, ← len]
    exact List.length_eq_zero_iff
  | makeEmpty =>
    obtain ⟨p1, p2, p3, p4, p5⟩ := makeEmpty_spec r.bp
    refine ⟨_, Step.makeEmpty, p1, p5 r.al, fun _ => p4, ?_, p3.symm, by simp [Distinct]⟩
    intro s k
    simp [step, p2 s]
  | insertUnsafe s k =>
    simp only [step]
    cases x : h.insertUnsafe s k with
    | ok h' =>
      obtain ⟨p1, p2, p3, p5, p6⟩ := insertUnsafe_spec r.bp x
      refine ⟨_, Step.insertUnsafe ?_ ?_, r.insertLike p1 (p5 r.al) p2 p3 p6 (fun cc => by cases cc)⟩
      · rw [len]; exact insertUnsafe_no_full x
      · rw [has, p6]; simp
    | error e =>
      refine ⟨⟨m, c⟩, ?_, afterSizeCheck_rel r⟩
      rcases insertUnsafe_err x with ⟨rfl, f⟩ | ⟨rfl, f, g⟩
      · apply Step.insertUnsafeFull; rw [len]; exact f
      · apply Step.insertUnsafeDup
        · rw [len]; exact f
        · rw [has]; exact g
  | deleteUnsafe s =>
    simp only [step]
    cases x : h.deleteUnsafe s with
    | ok h' =>
      obtain ⟨p1, p2, p3, p5, p6⟩ := deleteUnsafe_spec r.bp x
      exact ⟨_, Step.deleteUnsafe ((has s).mpr p6),
        r.removeLike p1 (p5 r.al) p2 p3 p6 (fun cc => by cases cc)⟩
    | error e =>
      have : keyOf h s = none ∧ e = .notIn := by
        unfold deleteUnsafe at x
        split at x
        next z => exact ⟨by simp [keyOf, z], (Except.error.inj x).symm⟩
        · cases x
      obtain ⟨p, rfl⟩ := this
      exact ⟨_, Step.deleteUnsafeNot (by rw [has]; simp [p]), r⟩
  | updateUnsafe s k =>
    simp only [step]
    cases x : h.updateUnsafe s k with
    | ok h' =>
      obtain ⟨p1, p2, p3, p5, p6⟩ := updateUnsafe_spec r.bp x
      exact ⟨_, Step.updateUnsafe ((has s).mpr p6),
        r.updateLike p1 (p5 r.al) p2 p3 p6 (fun cc => by cases cc)⟩
    | error e =>
      have : keyOf h s = none ∧ e = .notIn := by
        unfold updateUnsafe at x
        split at x
        next z => exact ⟨by simp [keyOf, z], (Except.error.inj x).symm⟩
        · split at x <;> cases x
      obtain ⟨p, rfl⟩ := this
      exact ⟨_, Step.updateUnsafeNot (by rw [has]; simp [p]), r⟩
  | makeHeap =>
    obtain ⟨p1, p2, p3⟩ := makeHeap_spec r.bp
    refine ⟨_, Step.makeHeap, p1, ⟨?_, ?_⟩, fun _ => p3, ?_, ?_, r.nd⟩
    · show h.makeHeap.size < h.makeHeap.alloc
      rw [p2.size, p2.alloc]; exact r.al.lt
    · show h.makeHeap.alloc ≤ HEAPSIZE
      rw [p2.alloc]; exact r.al.le
    · intro s k
      show keyOf h.makeHeap s = _ ↔ _
      rw [p2.key s]; exact r.mem s k
    · show m.length = h.makeHeap.size
      rw [p2.size]; exact len

theorem legal_cons {c : Bool} {op : HOp K} {ops : List (HOp K)} (l : Legal c (op :: ops)) :
    legal1 c op := by
  cases op <;> simp_all [Legal, legal1]

/-- A history legal from the unclean state is legal from the clean one. -/
theorem legal_mono (ops : List (HOp K)) : Legal false ops → Legal true ops := by
  induction ops with
  | nil => intro h; exact h
  | cons op ops ih =>
    intro h
    cases op <;> simp_all [Legal]

theorem legal_next {infKey : K} {a b : Abs K} {op : HOp K} {out : HOut K} {ops : List (HOp K)}
    (l : Legal a.clean (op :: ops)) (s : Step infKey a op out b) : Legal b.clean ops := by
  have tm : ∀ c : Bool, Legal false ops → Legal c ops := by
    intro c hc; cases c
    · exact hc
    · exact legal_mono ops hc
  cases s <;> simp only [Legal] at l <;> first | exact l | exact l.2 | exact tm _ l

theorem run_refines (infKey : K) (ops : List (HOp K)) : ∀ {h : Heap K} {a : Abs K}, Rel h a →
    Legal a.clean ops →
    ∃ b, Run infKey a ops (h.run infKey ops).2 b ∧ Rel (h.run infKey ops).1 b := by
  induction ops with
  | nil => intro h a r _; exact ⟨a, Run.nil, r⟩
  | cons op ops ih =>
    intro h a r l
    obtain ⟨b, s1, r1⟩ := step_refines infKey r op (legal_cons l)
    obtain ⟨c, s2, r2⟩ := ih r1 (legal_next l s1)
    exact ⟨c, Run.cons s1 s2, r2⟩

theorem rel_mk0 (alloc : Nat) (d : HElem K) (a1 : 1 ≤ alloc) (a2 : alloc ≤ HEAPSIZE) :
    Rel (mk0 alloc d) ⟨[], true⟩ := by
  refine ⟨⟨?_, ?_⟩, ⟨a1, a2⟩, ?_, ?_, rfl, by simp [Distinct]⟩
  · intro i x y
    have y : i ≤ 0 := y
    omega
  · intro s hs; exact absurd rfl hs
  · intro _ i x y
    have y : i ≤ 0 := y
    omega
  · intro s k; simp [keyOf, mk0]

end Heap
end Sbpl
