import Verif.Spec.CList
/-!
# `CList` refines the ordered-set specification
-/

namespace Sbpl
namespace CList

/-- address of the first cell of a segment, or what follows it -/
def hd : List (Nat × Nat) → Option Nat → Option Nat
  | [], n => n
  | p :: _, _ => some p.1

/-- address of the last cell of a segment, or what precedes it -/
def lst : List (Nat × Nat) → Option Nat → Option Nat
  | [], p => p
  | q :: rest, _ => lst rest (some q.1)

/-- the cells `as` (address, state) are linked in `mem`, preceded by `p` and followed by `n` -/
def Seg (mem : Nat → Option LElem) : Option Nat → List (Nat × Nat) → Option Nat → Prop
  | _, [], _ => True
  | p, q :: rest, n => mem q.1 = some ⟨q.2, p, hd rest n⟩ ∧ Seg mem (some q.1) rest n

theorem hd_append (a b : List (Nat × Nat)) (n : Option Nat) : hd (a ++ b) n = hd a (hd b n) := by
  cases a <;> rfl

theorem lst_append (a b : List (Nat × Nat)) (p : Option Nat) : lst (a ++ b) p = lst b (lst a p) := by
  induction a generalizing p with
  | nil => rfl
  | cons q a ih => exact ih _

theorem seg_append (mem : Nat → Option LElem) (a b : List (Nat × Nat)) (p n : Option Nat) :
    Seg mem p (a ++ b) n ↔ Seg mem p a (hd b n) ∧ Seg mem (lst a p) b n := by
  induction a generalizing p with
  | nil => simp [Seg, lst]
  | cons q a ih =>
    simp only [List.cons_append, Seg, ih, hd_append, lst, and_assoc]

theorem seg_frame {mem : Nat → Option LElem} {as : List (Nat × Nat)} {p n : Option Nat} (x : Nat)
    (v : Option LElem) (hx : x ∉ as.map Prod.fst) (h : Seg mem p as n) : Seg (upd mem x v) p as n := by
  induction as generalizing p with
  | nil => trivial
  | cons q as ih =>
    simp only [List.map_cons, List.mem_cons, not_or] at hx
    refine ⟨?_, ih hx.2 h.2⟩
    rw [upd_other _ _ (Ne.symm hx.1)]; exact h.1

/-- the concrete list represents the ordered set `m` -/
structure Rel (l : CList) (m : List Nat) where
  as : List (Nat × Nat)
  st : as.map Prod.snd = m
  seg : Seg l.mem none as none
  nda : (as.map Prod.fst).Nodup
  nds : m.Nodup
  first : l.first = hd as none
  last : l.last = lst as none
  size : l.size = m.length
  elem : ∀ s a, l.elem s = some a ↔ (a, s) ∈ as
  fresh : ∀ p ∈ as, p.1 < l.brk

theorem Rel.elem_isSome {l : CList} {m : List Nat} (r : Rel l m) (s : Nat) :
    (l.elem s).isSome = decide (s ∈ m) := by
  rw [← r.st]
  cases e : l.elem s with
  | none =>
    symm
    simp only [Option.isSome_none, decide_eq_false_iff_not, List.mem_map, not_exists, not_and]
    rintro ⟨a, t⟩ h rfl
    rw [(r.elem t a).mpr h] at e; cases e
  | some a =>
    symm
    simp only [Option.isSome_some, decide_eq_true_eq, List.mem_map]
    exact ⟨(a, s), (r.elem s a).mp e, rfl⟩

def rel_mk0 : Rel mk0 [] where
  as := []
  st := rfl
  seg := trivial
  nda := by simp
  nds := by simp
  first := rfl
  last := rfl
  size := rfl
  elem := by intro s a; simp [mk0]
  fresh := by intro p h; cases h

theorem insert_rel {l : CList} {m : List Nat} (r : Rel l m) (s : Nat) (h1 : ¬ m.length ≥ 5000000)
    (h2 : s ∉ m) : ∃ l', l.insert s = .ok l' ∧ Nonempty (Rel l' (s :: m)) := by
  obtain ⟨as, st, seg, nda, nds, first, last, size, elem, fresh⟩ := r
  have es : (l.elem s).isSome = false := by
    cases e : l.elem s with
    | none => rfl
    | some a =>
      exact absurd (by rw [← st]; exact List.mem_map.mpr ⟨_, (elem s a).mp e, rfl⟩) h2
  unfold insert
  rw [if_neg (by rw [size]; exact h1), es]
  simp only [Bool.false_eq_true, if_false]
  have bn : l.brk ∉ as.map Prod.fst := by
    intro h
    obtain ⟨p, hp, e⟩ := List.mem_map.mp h
    have := fresh p hp
    omega
  have elem' : ∀ t a, upd l.elem s (some l.brk) t = some a ↔ (a, t) ∈ (l.brk, s) :: as := by
    intro t a
    by_cases e : t = s
    · subst e
      simp only [upd_same, Option.some.injEq, List.mem_cons, Prod.mk.injEq, and_true]
      constructor
      · intro h; exact Or.inl h.symm
      · rintro (h | h)
        · exact h.symm
        · exact absurd (by rw [← st]; exact List.mem_map.mpr ⟨_, h, rfl⟩) h2
    · rw [upd_other _ _ e, elem]
      simp [e]
  have fresh' : ∀ p ∈ (l.brk, s) :: as, p.1 < l.brk + 1 := by
    intro p hp
    rcases List.mem_cons.mp hp with rfl | h
    · simp
    · have := fresh p h; omega
  cases as with
  | nil =>
    simp only [hd, lst] at first last
    rw [first, last]
    refine ⟨_, rfl, ⟨⟨[(l.brk, s)], ?_, ?_, ?_, ?_, rfl, rfl, ?_, elem', fresh'⟩⟩⟩
    · simp at st; simp [st]
    · exact ⟨by simp [hd], trivial⟩
    · simp
    · exact List.nodup_cons.mpr ⟨h2, nds⟩
    · simp [size]
  | cons q as =>
    have hf : l.first = some q.1 := first
    have nb : q.1 ≠ l.brk := by
      have := fresh q (List.mem_cons_self ..)
      omega
    have hm : upd l.mem l.brk (some ⟨s, none, l.first⟩) q.1 = some ⟨q.2, none, hd as none⟩ := by
      rw [upd_other _ _ nb]; exact seg.1
    have hl : ∃ x, l.last = some x := by
      rw [last]
      have : ∀ (as : List (Nat × Nat)) (x : Nat), ∃ y, lst as (some x) = some y := by
        intro as
        induction as with
        | nil => intro x; exact ⟨x, rfl⟩
        | cons q as ih => intro x; exact ih q.1
      exact this as q.1
    obtain ⟨x, hx⟩ := hl
    rw [hf] at hm ⊢
    simp only [setPrev, hm]
    refine ⟨_, rfl, ⟨⟨(l.brk, s) :: q :: as, ?_, ?_, ?_, ?_, rfl, ?_, ?_, elem', fresh'⟩⟩⟩
    · simp only [List.map_cons] at st ⊢; rw [st]
    · simp only [List.map_cons, List.nodup_cons] at nda
      refine ⟨?_, ?_, ?_⟩
      · simp only
        rw [upd_other _ _ (Ne.symm nb), upd_same]; rfl
      · simp only [upd_same]
      · apply seg_frame _ _ nda.1
        apply seg_frame
        · intro h; exact bn (List.mem_cons_of_mem _ h)
        · exact seg.2
    · exact List.nodup_cons.mpr ⟨bn, nda⟩
    · exact List.nodup_cons.mpr ⟨h2, nds⟩
    · simp only [hx]
      rw [← hx, last]; rfl
    · simp [size]

theorem lst_concat (as : List (Nat × Nat)) (q : Nat × Nat) (p : Option Nat) :
    lst (as ++ [q]) p = some q.1 := by
  rw [lst_append]; rfl

theorem remove_rel {l : CList} {m : List Nat} (r : Rel l m) (s : Nat) (hs : s ∈ m) :
    ∃ l', l.remove s = .ok l' ∧ Nonempty (Rel l' (m.erase s)) := by
  obtain ⟨as, st, seg, nda, nds, first, last, size, elem, fresh⟩ := r
  have hmem : ∃ a, (a, s) ∈ as := by
    rw [← st] at hs
    obtain ⟨⟨a, t⟩, h, e⟩ := List.mem_map.mp hs
    simp only at e; subst e
    exact ⟨a, h⟩
  obtain ⟨a, ha⟩ := hmem
  have ea := (elem s a).mpr ha
  obtain ⟨pre, post, rfl⟩ := List.append_of_mem ha
  have nz : l.size ≠ 0 := by
    rw [size]; intro h
    have := List.length_eq_zero_iff.mp h
    rw [this] at hs; cases hs
  have seg0 := seg
  rw [seg_append] at seg0
  obtain ⟨sp, sa, sq⟩ := seg0
  -- facts about distinctness
  have nda0 := nda
  simp only [List.map_append, List.map_cons] at nda0
  rw [List.nodup_append] at nda0
  obtain ⟨np, nq, npq⟩ := nda0
  obtain ⟨naq, nq⟩ := List.nodup_cons.mp nq
  have nap : a ∉ pre.map Prod.fst := fun h => npq a h a (List.mem_cons_self ..) rfl
  have npost : ∀ x, x ∈ pre.map Prod.fst → x ∉ post.map Prod.fst :=
    fun x h h2 => npq x h x (List.mem_cons_of_mem _ h2) rfl
  have nds0 := nds
  rw [← st] at nds0
  simp only [List.map_append, List.map_cons] at nds0
  rw [List.nodup_append] at nds0
  obtain ⟨_, nsq, nspq⟩ := nds0
  obtain ⟨nsq, _⟩ := List.nodup_cons.mp nsq
  have nsp : s ∉ pre.map Prod.snd := fun h => nspq s h s (List.mem_cons_self ..) rfl
  have er : m.erase s = (pre ++ post).map Prod.snd := by
    rw [← st, List.map_append, List.map_cons, List.erase_append_right _ nsp, List.erase_cons_head,
      List.map_append]
  -- components of the result common to all four cases
  have elem' : ∀ t x, upd l.elem s none t = some x ↔ (x, t) ∈ pre ++ post := by
    intro t x
    have := elem t x
    rw [List.mem_append, List.mem_cons] at this
    rw [List.mem_append]
    by_cases e : t = s
    · subst e
      simp only [upd_same, reduceCtorEq, false_iff, not_or]
      exact ⟨fun h => nsp (List.mem_map.mpr ⟨_, h, rfl⟩), fun h => nsq (List.mem_map.mpr ⟨_, h, rfl⟩)⟩
    · rw [upd_other _ _ e, this]
      simp [e]
  have nda' : ((pre ++ post).map Prod.fst).Nodup := by
    rw [List.map_append, List.nodup_append]
    exact ⟨np, nq, fun x hx y hy h => npost x hx (h ▸ hy)⟩
  have nds' : (m.erase s).Nodup := nds.erase s
  have size' : l.size - 1 = (m.erase s).length := by
    rw [List.length_erase_of_mem hs, size]
  have fresh' : ∀ p ∈ pre ++ post, p.1 < l.brk := by
    intro p hp
    apply fresh
    rcases List.mem_append.mp hp with h | h
    · exact List.mem_append_left _ h
    · exact List.mem_append_right _ (List.mem_cons_of_mem _ h)
  simp only at sa
  unfold remove
  rw [ea]
  simp only [nz, if_false, sa]
  rcases List.eq_nil_or_concat pre with rfl | ⟨pre', q, rfl⟩
  · cases post with
    | nil =>
      simp only [lst, hd]
      exact ⟨_, rfl, ⟨⟨[], by rw [er]; rfl, trivial, by simp, nds', rfl, rfl, size', elem', fresh'⟩⟩⟩
    | cons n post =>
      simp only [lst, hd]
      have hn : l.mem n.1 = some ⟨n.2, some a, hd post none⟩ := sq.1
      simp only [setPrev, hn]
      simp only [List.map_cons, List.mem_cons, not_or, List.nodup_cons] at naq nq
      refine ⟨_, rfl, ⟨⟨n :: post, by rw [er]; rfl, ⟨?_, ?_⟩, nda', nds', rfl, ?_, size', elem',
        fresh'⟩⟩⟩
      · simp only
        rw [upd_other _ _ (Ne.symm naq.1), upd_same]
      · exact seg_frame _ _ naq.2 (seg_frame _ _ nq.1 sq.2)
      · simp only [last]; rfl
  · rw [List.concat_eq_append] at *
    have lp : lst (pre' ++ [q]) none = some q.1 := lst_concat _ _ _
    rw [seg_append] at sp
    obtain ⟨sp1, sp2, _⟩ := sp
    have hq : l.mem q.1 = some ⟨q.2, lst pre' none, some a⟩ := sp2
    simp only [List.map_append, List.map_cons, List.map_nil, List.mem_append, List.mem_singleton,
      not_or] at nap npost
    rw [List.map_append, List.nodup_append] at np
    have nqp : q.1 ∉ pre'.map Prod.fst := fun h => np.2.2 q.1 h q.1 (by simp) rfl
    simp only [lp]
    cases post with
    | nil =>
      simp only [hd, setNext, hq]
      refine ⟨_, rfl, ⟨⟨pre' ++ [q], by rw [er]; simp, ?_, by simpa using nda', nds', ?_, ?_, size',
        by simpa using elem', by simpa using fresh'⟩⟩⟩
      · rw [seg_append]
        refine ⟨?_, ?_, trivial⟩
        · exact seg_frame _ _ nap.1 (seg_frame _ _ nqp sp1)
        · simp only
          rw [upd_other _ _ (Ne.symm nap.2), upd_same]; rfl
      · simp only [first, hd_append]; cases pre' <;> rfl
      · simp only; rw [lp]
    | cons n post =>
      simp only [hd, setNext, hq]
      have nqn : n.1 ≠ q.1 := by
        intro h
        have := npost q.1 (Or.inr rfl)
        rw [List.map_cons, List.mem_cons, not_or] at this
        exact this.1 h.symm
      have hn : l.mem n.1 = some ⟨n.2, some a, hd post none⟩ := sq.1
      have hn1 : upd l.mem q.1 (some { st := q.2, prev := lst pre' none, next := some n.1 }) n.1 =
        some ⟨n.2, some a, hd post none⟩ := by rw [upd_other _ _ nqn]; exact hn
      simp only [setPrev, hn1]
      simp only [List.map_cons, List.mem_cons, not_or, List.nodup_cons] at naq nq
      have nqpost : q.1 ∉ post.map Prod.fst := by
        have := npost q.1 (Or.inr rfl)
        rw [List.map_cons, List.mem_cons, not_or] at this
        exact this.2
      have nnpre : n.1 ∉ pre'.map Prod.fst := by
        intro h
        have := npost n.1 (Or.inl h)
        rw [List.map_cons, List.mem_cons, not_or] at this
        exact this.1 rfl
      refine ⟨_, rfl, ⟨⟨(pre' ++ [q]) ++ n :: post, by rw [er], ?_, nda', nds', ?_, ?_, size', elem',
        fresh'⟩⟩⟩
      · rw [seg_append, seg_append, lp]
        refine ⟨⟨?_, ?_, trivial⟩, ?_, ?_⟩
        · exact seg_frame _ _ nap.1 (seg_frame _ _ nnpre (seg_frame _ _ nqp sp1))
        · simp only
          rw [upd_other _ _ (Ne.symm nap.2), upd_other _ _ (Ne.symm nqn), upd_same]; rfl
        · simp only
          rw [upd_other _ _ (Ne.symm naq.1), upd_same]
        · exact seg_frame _ _ naq.2 (seg_frame _ _ nq.1 (seg_frame _ _ nqpost sq.2))
      · simp only [first, hd_append]; cases pre' <;> rfl
      · simp only [last, lst_append]; rfl

theorem makeEmptyLoop_rel (fuel : Nat) : ∀ {l : CList} {m : List Nat}, Rel l m → m.length < fuel →
    ∃ l', makeEmptyLoop fuel l = .ok l' ∧ Nonempty (Rel l' []) := by
  induction fuel with
  | zero => intro l m _ h; omega
  | succ fuel ih =>
    intro l m r hf
    rw [makeEmptyLoop]
    cases m with
    | nil =>
      have : r.as = [] := by have := r.st; simpa using this
      have hf : l.first = none := by rw [r.first, this]; rfl
      simp only [hf]
      exact ⟨l, rfl, ⟨r⟩⟩
    | cons s m =>
      obtain ⟨q, as, e⟩ : ∃ q as, r.as = q :: as := by
        cases h : r.as with
        | nil => have := r.st; rw [h] at this; cases this
        | cons q as => exact ⟨q, as, rfl⟩
      have hf1 : l.first = some q.1 := by rw [r.first, e]; rfl
      have hm : l.mem q.1 = some ⟨q.2, none, hd as none⟩ := by
        have := r.seg; rw [e] at this; exact this.1
      have hs : q.2 = s := by have := r.st; rw [e] at this; exact (List.cons.inj this).1
      obtain ⟨l', e1, ⟨r1⟩⟩ := remove_rel r s (List.mem_cons_self ..)
      simp only [hf1, hm, hs, e1]
      rw [List.erase_cons_head] at r1
      exact ih r1 (by simp only [List.length_cons] at hf; omega)

theorem stateAt_hd {l : CList} {p n : Option Nat} {as : List (Nat × Nat)} (h : Seg l.mem p as n)
    (hn : n = none) : l.stateAt (hd as n) = .ok ((as.map Prod.snd).head?) := by
  cases as with
  | nil => subst hn; rfl
  | cons q as => simp [hd, stateAt, h.1]

theorem getNext_rel {l : CList} {m : List Nat} (r : Rel l m) (s : Nat) (hs : s ∈ m) :
    l.getNext s = .ok (ListSpec.after m s) := by
  have hs0 := hs
  rw [← r.st] at hs
  obtain ⟨⟨a, t⟩, ha, e⟩ := List.mem_map.mp hs
  simp only at e; subst e
  have ea := (r.elem t a).mpr ha
  obtain ⟨pre, post, e⟩ := List.append_of_mem ha
  have seg := r.seg
  rw [e, seg_append] at seg
  obtain ⟨_, sa, sq⟩ := seg
  simp only at sa
  have st := r.st
  have nds := r.nds
  rw [e] at st
  rw [← st] at nds
  simp only [List.map_append, List.map_cons] at nds st
  rw [List.nodup_append] at nds
  have nsp : t ∉ pre.map Prod.snd := fun h => nds.2.2 t h t (List.mem_cons_self ..) rfl
  unfold getNext
  simp only [ea, sa]
  rw [stateAt_hd sq rfl]
  congr 1
  rw [ListSpec.after, ← st, List.dropWhile_append]
  have : (List.dropWhile (fun x => x != t) (pre.map Prod.snd)) = [] := by
    generalize pre.map Prod.snd = P at nsp
    clear nds st
    induction P with
    | nil => rfl
    | cons x P ih =>
      simp only [List.mem_cons, not_or] at nsp
      have : (x != t) = true := by simp [Ne.symm nsp.1]
      simp [List.dropWhile, this, ih nsp.2]
  simp [this]

theorem step_refines {l : CList} {m : List Nat} (r : Rel l m) (op : LOp) :
    (l.step op).2 = (ListSpec.step m op).2 ∧ Nonempty (Rel (l.step op).1 (ListSpec.step m op).1) := by
  cases op with
  | insert s =>
    simp only [step, ListSpec.step]
    by_cases h1 : m.length ≥ 5000000
    · simp only [h1, if_true]
      have : l.insert s = .error .full := by
        unfold insert; rw [if_pos (by rw [r.size]; exact h1)]
      rw [this]; exact ⟨rfl, ⟨r⟩⟩
    · by_cases h2 : s ∈ m
      · simp only [h1, h2, if_true, if_false]
        have : l.insert s = .error .alreadyIn := by
          unfold insert; rw [if_neg (by rw [r.size]; exact h1), r.elem_isSome]; simp [h2]
        rw [this]; exact ⟨rfl, ⟨r⟩⟩
      · simp only [h1, h2, if_false]
        obtain ⟨l', e, r'⟩ := insert_rel r s h1 h2
        rw [e]; exact ⟨rfl, r'⟩
  | remove s =>
    simp only [step, ListSpec.step]
    by_cases h2 : s ∈ m
    · simp only [h2, if_true]
      obtain ⟨l', e, r'⟩ := remove_rel r s h2
      rw [e]; exact ⟨rfl, r'⟩
    · simp only [h2, if_false]
      have : l.remove s = .error .notIn := by
        have := r.elem_isSome s
        unfold remove
        cases e : l.elem s with
        | none => rfl
        | some a => rw [e] at this; simp [h2] at this
      rw [this]; exact ⟨rfl, ⟨r⟩⟩
  | makeEmpty =>
    simp only [step, ListSpec.step, makeEmpty]
    obtain ⟨l', e, r'⟩ := makeEmptyLoop_rel (l.size + 1) r (by rw [r.size]; omega)
    rw [e]; exact ⟨rfl, r'⟩
  | inList s =>
    refine ⟨?_, ⟨r⟩⟩
    simp only [step, ListSpec.step, inList, r.elem_isSome]
  | getFirst =>
    simp only [step, ListSpec.step, getFirst]
    have : l.stateAt l.first = .ok m.head? := by
      rw [r.first, stateAt_hd r.seg rfl, r.st]
    rw [this]; exact ⟨rfl, ⟨r⟩⟩
  | getLast =>
    simp only [step, ListSpec.step, getLast]
    have : l.stateAt l.last = .ok m.getLast? := by
      rw [r.last]
      have seg := r.seg
      have st := r.st
      rcases List.eq_nil_or_concat r.as with e | ⟨as', q, e⟩
      · rw [e] at st ⊢; rw [← st]; rfl
      · rw [List.concat_eq_append] at e
        rw [e, seg_append] at seg
        rw [e] at st
        rw [e, lst_concat, ← st]
        have hq : l.mem q.1 = some ⟨q.2, lst as' none, none⟩ := seg.2.1
        simp [stateAt, hq]
    rw [this]; exact ⟨rfl, ⟨r⟩⟩
  | getNext s =>
    simp only [step, ListSpec.step]
    by_cases h2 : s ∈ m
    · simp only [h2, if_true]
      rw [getNext_rel r s h2]; exact ⟨rfl, ⟨r⟩⟩
    · simp only [h2, if_false]
      have : l.getNext s = .error .ub := by
        have := r.elem_isSome s
        unfold getNext
        cases e : l.elem s with
        | none => rfl
        | some a => rw [e] at this; simp [h2] at this
      rw [this]; exact ⟨rfl, ⟨r⟩⟩
  | isEmpty =>
    refine ⟨?_, ⟨r⟩⟩
    simp only [step, ListSpec.step, isEmpty, r.size]
    cases m <;> simp
  | isFull =>
    refine ⟨?_, ⟨r⟩⟩
    simp only [step, ListSpec.step, isFull, r.size]; rfl

theorem run_refines (ops : List LOp) : ∀ {l : CList} {m : List Nat}, Rel l m →
    (l.run ops).2 = (ListSpec.run m ops).2 ∧ Nonempty (Rel (l.run ops).1 (ListSpec.run m ops).1) := by
  induction ops with
  | nil => intro l m r; exact ⟨rfl, ⟨r⟩⟩
  | cons op ops ih =>
    intro l m r
    obtain ⟨e, ⟨r1⟩⟩ := step_refines r op
    obtain ⟨e2, r2⟩ := ih r1
    exact ⟨by simp only [run, ListSpec.run, e, e2], r2⟩

end CList
end Sbpl
