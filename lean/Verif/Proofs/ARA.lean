import Mathlib.Tactic.Linarith
import Mathlib.Tactic.Ring
import Verif.Model.ARA
import Verif.Spec.Graph
import Verif.Proofs.HeapOps
import Verif.Proofs.CList
/-! Invariants of the ARA* model: data structures, OPEN/INCONS membership, edge relaxation, parents. -/

namespace Sbpl.ARA
open GraphSpec Heap

abbrev INF : Nat := INFINITECOST

/-- the state's information is up to date -/
def acc (st : ARA) (s : Nat) : Prop := st.callA s = st.call
instance (st : ARA) (s : Nat) : Decidable (st.acc s) := inferInstanceAs (Decidable (_ = _))
/-- effective g value -/
def G (st : ARA) (s : Nat) : Nat := if st.acc s then st.g s else INF
/-- effective v value -/
def V (st : ARA) (s : Nat) : Nat := if st.acc s then st.v s else INF
/-- in INCONS -/
def Inc (st : ARA) (s : Nat) : Prop := st.incons.elem s ≠ none
/-- expanded in this iteration -/
def closed (st : ARA) (s : Nat) : Prop := st.acc s ∧ st.iterC s = st.iter
/-- back pointer used by this search direction -/
def ptr (st : ARA) (s : Nat) : Option Nat := if st.fwd then st.par s else st.next s
/-- search graph without the absorbing treatment of the goal -/
def base (st : ARA) (s : Nat) : List (Nat × Nat) :=
  if st.fwd then st.env.succs (s + 1) s else st.env.preds (st.start.getD 0) s

/-- errors that only report that a container is at its compile-time capacity -/
def Cap (e : PErr) : Prop := e = .heap .full ∨ e = .list .full

/-- outcome satisfies `P`, or a container capacity was hit -/
def OkOr {α : Type} (r : Except PErr α) (P : α → Prop) : Prop :=
  match r with
  | .ok a => P a
  | .error e => Cap e

theorem OkOr.imp {α : Type} {r : Except PErr α} {P Q : α → Prop} (h : OkOr r P) (i : ∀ a, P a → Q a) :
    OkOr r Q := by
  cases r with
  | ok a => exact i a h
  | error e => exact h

/-- data structure invariants, valid between any two steps -/
structure Data (st : ARA) : Prop where
  bp : BP st.heap
  ord : Ordered st.heap
  lrel : ∃ m, Nonempty (CList.Rel st.incons m)
  callLe : ∀ s, st.callA s ≤ st.call
  staleH : ∀ s, ¬ st.acc s → keyOf st.heap s = none
  staleL : ∀ s, ¬ st.acc s → st.incons.elem s = none

theorem keyOf_none {K : Type} [LinearOrder K] {h : Heap K} {s : Nat} :
    keyOf h s = none ↔ h.idx s = 0 := by
  simp [keyOf]

/-- everything but the per-state data is unchanged -/
structure Frame (a b : ARA) : Prop where
  env : b.env = a.env
  fwd : b.fwd = a.fwd
  D : b.D = a.D
  call : b.call = a.call
  iter : b.iter = a.iter
  start : b.start = a.start
  goal : b.goal = a.goal
  eps : b.eps = a.eps
  epsSat : b.epsSat = a.epsSat
  bReeval : b.bReeval = a.bReeval
  bReinit : b.bReinit = a.bReinit
  bNew : b.bNew = a.bNew
  initEps : b.initEps = a.initEps
  finalEps : b.finalEps = a.finalEps
  decEps : b.decEps = a.decEps
  first : b.first = a.first
  accM : ∀ s, a.acc s → b.acc s
  gLe : ∀ s, b.G s ≤ a.G s

theorem Frame.refl (a : ARA) : Frame a a :=
  ⟨rfl, rfl, rfl, rfl, rfl, rfl, rfl, rfl, rfl, rfl, rfl, rfl, rfl, rfl, rfl, rfl, fun _ h => h,
    fun _ => Nat.le_refl _⟩

theorem Frame.trans {a b c : ARA} (x : Frame a b) (y : Frame b c) : Frame a c := by
  constructor
  all_goals first
    | exact fun s h => y.accM s (x.accM s h)
    | exact fun s => Nat.le_trans (y.gLe s) (x.gLe s)
    | simp only [x.env, y.env, x.fwd, y.fwd, x.D, y.D, x.call, y.call, x.iter, y.iter, x.start, y.start, x.goal,
        y.goal, x.eps, y.eps, x.epsSat, y.epsSat, x.bReeval, y.bReeval, x.bReinit, y.bReinit, x.bNew, y.bNew,
        x.initEps, y.initEps, x.finalEps, y.finalEps, x.decEps, y.decEps, x.first, y.first]

theorem Frame.nbr {a b : ARA} (f : Frame a b) : b.nbr = a.nbr := by
  funext s; simp only [ARA.nbr, f.env, f.fwd, f.goal, f.start]
theorem Frame.base {a b : ARA} (f : Frame a b) : b.base = a.base := by
  funext s; simp only [ARA.base, f.env, f.fwd, f.start]
theorem Frame.heur {a b : ARA} (f : Frame a b) : b.heur = a.heur := by
  funext gl s; simp only [ARA.heur, f.env, f.fwd]

/-- state after `touch`, with the (ineffective) resets of heap index and list element removed -/
theorem touch_eq {st : ARA} (d : Data st) (s : Nat) : st.touch s =
    if st.acc s then st else
      { st with
        g := upd st.g s INFINITECOST, v := upd st.v s INFINITECOST, iterC := upd st.iterC s 0,
        callA := upd st.callA s st.call, next := upd st.next s none, par := upd st.par s none,
        h := upd st.h s (match st.goal with | some gl => st.heur gl s | none => 0) } := by
  unfold touch
  by_cases a : st.acc s
  · rw [if_neg (by intro h; exact h a), if_pos a]
  · rw [if_pos (show st.callA s ≠ st.call from a), if_neg a]
    unfold reinitState
    have e1 : upd st.heap.idx s 0 = st.heap.idx := by
      funext t; simp only [upd]; split
      next q => rw [q]; exact (keyOf_none.mp (d.staleH s a)).symm
      next q => rfl
    have e2 : upd st.incons.elem s none = st.incons.elem := by
      funext t; simp only [upd]; split
      next q => rw [q]; exact (d.staleL s a).symm
      next q => rfl
    rw [e1, e2]
    rfl

theorem touch_other {st : ARA} (d : Data st) (s t : Nat) (h : t ≠ s) :
    (st.touch s).g t = st.g t ∧ (st.touch s).v t = st.v t ∧ (st.touch s).h t = st.h t ∧
    (st.touch s).iterC t = st.iterC t ∧ (st.touch s).callA t = st.callA t ∧
    (st.touch s).ptr t = st.ptr t := by
  rw [touch_eq d]
  split
  · exact ⟨rfl, rfl, rfl, rfl, rfl, rfl⟩
  · simp only [ptr, upd_other _ _ h]
    exact ⟨trivial, trivial, trivial, trivial, trivial, trivial⟩

theorem touch_heap {st : ARA} (d : Data st) (s : Nat) :
    (st.touch s).heap = st.heap ∧ (st.touch s).incons = st.incons ∧ (st.touch s).call = st.call ∧
    (st.touch s).iter = st.iter ∧ (st.touch s).env = st.env ∧ (st.touch s).fwd = st.fwd ∧
    (st.touch s).goal = st.goal ∧ (st.touch s).start = st.start := by
  rw [touch_eq d]; split <;> exact ⟨rfl, rfl, rfl, rfl, rfl, rfl, rfl, rfl⟩

theorem touch_acc {st : ARA} (d : Data st) (s : Nat) : (st.touch s).acc s := by
  rw [touch_eq d]
  split
  next a => exact a
  next a => simp [acc]

theorem touch_self_acc {st : ARA} (d : Data st) {s : Nat} (a : st.acc s) : st.touch s = st := by
  rw [touch_eq d, if_pos a]

theorem touch_self_new {st : ARA} (d : Data st) {s : Nat} (a : ¬ st.acc s) :
    (st.touch s).g s = INF ∧ (st.touch s).v s = INF ∧ (st.touch s).iterC s = 0 ∧
    (st.touch s).h s = (match st.goal with | some gl => st.heur gl s | none => 0) ∧
    (st.touch s).ptr s = none := by
  rw [touch_eq d, if_neg a]
  simp [ptr]

theorem touch_acc_iff {st : ARA} (d : Data st) (s t : Nat) :
    (st.touch s).acc t ↔ t = s ∨ st.acc t := by
  by_cases c : t = s
  · subst c; simp [touch_acc d]
  · have := touch_other d s t c
    simp only [acc, this.2.2.2.2.1, (touch_heap d s).2.2.1, c, false_or]

theorem touch_G {st : ARA} (d : Data st) (s t : Nat) : (st.touch s).G t = st.G t := by
  simp only [G, touch_acc_iff d]
  by_cases c : t = s
  · subst c
    simp only [true_or, if_true]
    by_cases a : st.acc t
    · rw [touch_self_acc d a, if_pos a]
    · rw [if_neg a, (touch_self_new d a).1]
  · simp only [c, false_or, (touch_other d s t c).1]

theorem touch_V {st : ARA} (d : Data st) (s t : Nat) : (st.touch s).V t = st.V t := by
  simp only [V, touch_acc_iff d]
  by_cases c : t = s
  · subst c
    simp only [true_or, if_true]
    by_cases a : st.acc t
    · rw [touch_self_acc d a, if_pos a]
    · rw [if_neg a, (touch_self_new d a).2.1]
  · simp only [c, false_or, (touch_other d s t c).2.1]

theorem touch_frame {st : ARA} (d : Data st) (s : Nat) : Frame st (st.touch s) := by
  have A : ∀ t, st.acc t → (st.touch s).acc t := fun t h => (touch_acc_iff d s t).mpr (.inr h)
  have B : ∀ t, (st.touch s).G t ≤ st.G t := fun t => Nat.le_of_eq (touch_G d s t)
  constructor
  all_goals first
    | exact A
    | exact B
    | (rw [touch_eq d]; split <;> rfl)

theorem touch_data {st : ARA} (d : Data st) (s : Nat) : Data (st.touch s) := by
  obtain ⟨e1, e2, e3, _⟩ := touch_heap d s
  refine ⟨by rw [e1]; exact d.bp, by rw [e1]; exact d.ord, by rw [e2]; exact d.lrel, ?_, ?_, ?_⟩
  · intro t
    by_cases c : t = s
    · subst c; rw [show (st.touch t).callA t = (st.touch t).call from touch_acc d t]
    · rw [(touch_other d s t c).2.2.2.2.1, e3]; exact d.callLe t
  · intro t h
    rw [touch_acc_iff d, not_or] at h
    rw [e1]; exact d.staleH t h.2
  · intro t h
    rw [touch_acc_iff d, not_or] at h
    rw [e2]; exact d.staleL t h.2

/-- The search invariant; `x` is the state being expanded and `es` its edges not processed yet. -/
structure Core (st : ARA) (s0 : Nat) (x : Nat) (es : List (Nat × Nat)) : Prop where
  startAcc : st.acc s0
  startG : st.g s0 = 0
  gv : ∀ s, st.acc s → st.g s ≤ st.v s
  vInf : ∀ s, st.acc s → st.v s ≤ INF
  iterLe : ∀ s, st.acc s → st.iterC s ≤ st.iter
  edge : ∀ u t c, (t, c) ∈ st.base u → (u = x ∧ (t, c) ∈ es) ∨ st.G t ≤ st.V u + c
  ptrOk : ∀ s, st.acc s → st.g s < INF → s ≠ s0 →
    ∃ p c, st.ptr s = some p ∧ (s, c) ∈ st.base p ∧ st.acc p ∧ st.v p + c ≤ st.g s
  openLt : ∀ s, keyOf st.heap s ≠ none → st.g s < st.v s
  incLt : ∀ s, st.Inc s → st.g s < st.v s
  ltIn : ∀ s, st.acc s → st.g s < st.v s → keyOf st.heap s ≠ none ∨ st.Inc s
  disj : ∀ s, ¬ (keyOf st.heap s ≠ none ∧ st.Inc s)

theorem Data.openAcc {st : ARA} (d : Data st) {s : Nat} (h : keyOf st.heap s ≠ none) : st.acc s := by
  by_contra c; exact h (d.staleH s c)
theorem Data.incAcc {st : ARA} (d : Data st) {s : Nat} (h : st.Inc s) : st.acc s := by
  by_contra c; exact h (d.staleL s c)

/-- within an iteration -/
structure Phase (st : ARA) : Prop where
  it : 1 ≤ st.iter
  opn : ∀ s, keyOf st.heap s ≠ none → st.iterC s ≠ st.iter
  inc : ∀ s, st.Inc s → st.iterC s = st.iter

def HOk (st : ARA) (gl : Nat) : Prop := ∀ s, st.acc s → st.h s = st.heur gl s
def Keys (st : ARA) : Prop := ∀ s k, keyOf st.heap s = some k → k = st.keyFor s

theorem G_acc {st : ARA} {s : Nat} (a : st.acc s) : st.G s = st.g s := if_pos a
theorem V_acc {st : ARA} {s : Nat} (a : st.acc s) : st.V s = st.v s := if_pos a
theorem G_stale {st : ARA} {s : Nat} (a : ¬ st.acc s) : st.G s = INF := if_neg a
theorem V_stale {st : ARA} {s : Nat} (a : ¬ st.acc s) : st.V s = INF := if_neg a

theorem Core.GV {st : ARA} {s0 x : Nat} {es : List (Nat × Nat)} (c : Core st s0 x es) (s : Nat) :
    st.G s ≤ st.V s ∧ st.V s ≤ INF := by
  by_cases a : st.acc s
  · rw [G_acc a, V_acc a]; exact ⟨c.gv s a, c.vInf s a⟩
  · rw [G_stale a, V_stale a]; exact ⟨Nat.le_refl _, Nat.le_refl _⟩

theorem touch_core {st : ARA} (d : Data st) {s0 x : Nat} {es : List (Nat × Nat)}
    (c : Core st s0 x es) (s : Nat) : Core (st.touch s) s0 x es := by
  by_cases a : st.acc s
  · rw [touch_self_acc d a]; exact c
  obtain ⟨n1, n2, n3, n4, n5⟩ := touch_self_new d a
  obtain ⟨e1, e2, e3, e4, _⟩ := touch_heap d s
  have fr := touch_frame d s
  have ne0 : s0 ≠ s := by rintro rfl; exact a c.startAcc
  have ai := touch_acc_iff d s
  have oth := touch_other d s
  have nes : ∀ t, (st.touch s).acc t → t ≠ s → st.acc t := fun t h q => (((ai t).mp h).resolve_left q)
  refine ⟨(ai _).mpr (.inr c.startAcc), by rw [(oth _ ne0).1]; exact c.startG, ?_, ?_, ?_, ?_, ?_, ?_, ?_, ?_, ?_⟩
  · intro t h
    by_cases q : t = s
    · subst q; rw [n1, n2]
    · rw [(oth t q).1, (oth t q).2.1]; exact c.gv t (nes t h q)
  · intro t h
    by_cases q : t = s
    · subst q; rw [n2]
    · rw [(oth t q).2.1]; exact c.vInf t (nes t h q)
  · intro t h
    by_cases q : t = s
    · subst q; rw [n3]; omega
    · rw [(oth t q).2.2.2.1, e4]; exact c.iterLe t (nes t h q)
  · intro u t k h
    rw [fr.base] at h
    rw [touch_G d, touch_V d]; exact c.edge u t k h
  · intro t h lt n0
    by_cases q : t = s
    · subst q; rw [n1] at lt; omega
    · rw [(oth t q).1] at lt ⊢
      obtain ⟨p, k, h1, h2, h3, h4⟩ := c.ptrOk t (nes t h q) lt n0
      have ps : p ≠ s := by rintro rfl; exact a h3
      exact ⟨p, k, by rw [(oth t q).2.2.2.2.2]; exact h1, by rw [fr.base]; exact h2, (ai p).mpr (.inr h3),
        by rw [(oth p ps).2.1]; exact h4⟩
  · intro t h
    rw [e1] at h
    have q : t ≠ s := by rintro rfl; exact a (d.openAcc h)
    rw [(oth t q).1, (oth t q).2.1]; exact c.openLt t h
  · intro t h
    have h' : st.Inc t := by rw [Inc, e2] at h; exact h
    have q : t ≠ s := by rintro rfl; exact a (d.incAcc h')
    rw [(oth t q).1, (oth t q).2.1]; exact c.incLt t h'
  · intro t h lt
    by_cases q : t = s
    · subst q; rw [n1, n2] at lt; omega
    · rw [(oth t q).1, (oth t q).2.1] at lt
      rw [e1, Inc, e2]; exact c.ltIn t (nes t h q) lt
  · intro t h
    rw [e1, Inc, e2] at h
    exact c.disj t h

theorem touch_phase {st : ARA} (d : Data st) (c : Phase st) (s : Nat) : Phase (st.touch s) := by
  by_cases a : st.acc s
  · rw [touch_self_acc d a]; exact c
  obtain ⟨e1, e2, e3, e4, _⟩ := touch_heap d s
  have oth := touch_other d s
  refine ⟨by rw [e4]; exact c.it, ?_, ?_⟩
  · intro t h
    rw [e1] at h
    have q : t ≠ s := by rintro rfl; exact a (d.openAcc h)
    rw [(oth t q).2.2.2.1, e4]; exact c.opn t h
  · intro t h
    have h' : st.Inc t := by rw [Inc, e2] at h; exact h
    have q : t ≠ s := by rintro rfl; exact a (d.incAcc h')
    rw [(oth t q).2.2.2.1, e4]; exact c.inc t h'

theorem touch_hok {st : ARA} (d : Data st) {gl : Nat} (g : st.goal = some gl) (c : HOk st gl) (s : Nat) :
    HOk (st.touch s) gl := by
  by_cases a : st.acc s
  · rw [touch_self_acc d a]; exact c
  intro t h
  rw [(touch_frame d s).heur]
  by_cases q : t = s
  · subst q; rw [(touch_self_new d a).2.2.2.1, g]
  · rw [(touch_other d s t q).2.2.1]
    exact c t (((touch_acc_iff d s t).mp h).resolve_left q)

theorem touch_keys {st : ARA} (d : Data st) (c : Keys st) (s : Nat) : Keys (st.touch s) := by
  by_cases a : st.acc s
  · rw [touch_self_acc d a]; exact c
  intro t k h
  rw [(touch_heap d s).1] at h
  have q : t ≠ s := by rintro rfl; exact a (d.openAcc (by rw [h]; simp))
  have := c t k h
  rw [this]
  simp only [keyFor, (touch_other d s t q).1, (touch_other d s t q).2.2.1, (touch_frame d s).D,
    (touch_frame d s).eps]

theorem touch_closed {st : ARA} (d : Data st) (p : 1 ≤ st.iter) (s t : Nat) :
    (st.touch s).closed t ↔ st.closed t := by
  by_cases a : st.acc s
  · rw [touch_self_acc d a]
  simp only [closed, touch_acc_iff d, (touch_heap d s).2.2.2.1]
  by_cases q : t = s
  · subst q
    rw [(touch_self_new d a).2.2.1]
    constructor
    · rintro ⟨_, h⟩; omega
    · rintro ⟨h, _⟩; exact absurd h a
  · rw [(touch_other d s t q).2.2.2.1]; simp only [q, false_or]

/-- what processing edges preserves besides the invariants -/
structure Step (a b : ARA) : Prop where
  frame : Frame a b
  vEq : ∀ s, b.V s = a.V s
  clEq : ∀ s, b.closed s ↔ a.closed s
  rawV : ∀ s, a.acc s → b.v s = a.v s

theorem Step.refl (a : ARA) : Step a a := ⟨Frame.refl a, fun _ => rfl, fun _ => Iff.rfl, fun _ _ => rfl⟩
theorem Step.trans {a b c : ARA} (x : Step a b) (y : Step b c) : Step a c :=
  ⟨x.frame.trans y.frame, fun s => (y.vEq s).trans (x.vEq s), fun s => (y.clEq s).trans (x.clEq s),
    fun s h => (y.rawV s (x.frame.accM s h)).trans (x.rawV s h)⟩

theorem touch_step {st : ARA} (d : Data st) (p : 1 ≤ st.iter) (s : Nat) : Step st (st.touch s) := by
  refine ⟨touch_frame d s, touch_V d s, touch_closed d p s, ?_⟩
  intro t h
  by_cases q : t = s
  · subst q; rw [touch_self_acc d h]
  · exact (touch_other d s t q).2.1

theorem heap_insert_err {h : Heap CKey} {s : Nat} {k : CKey} (n : keyOf h s = none) {e : HeapErr}
    (x : h.insert s k = .error e) : e = .full := by
  have ix := keyOf_none.mp n
  unfold Heap.insert Heap.sizeCheck Heap.grow at x
  split at x
  next e' q =>
    split at q
    · cases q; cases x; rfl
    · split at q <;> cases q
  next h1 q =>
    have : h1.idx s = 0 := by
      split at q
      · cases q
      · split at q <;> (cases q; exact ix)
    rw [if_neg (by simp [this])] at x
    cases x

theorem list_insert_err {l : CList} {m : List Nat} (r : CList.Rel l m) {s : Nat} (n : l.elem s = none) {e : ListErr}
    (x : l.insert s = .error e) : e = .full := by
  have nm : s ∉ m := by
    have := r.elem_isSome s
    rw [n] at this; simpa using this
  by_cases h1 : m.length ≥ 5000000
  · unfold CList.insert at x
    rw [if_pos (by rw [r.size]; exact h1)] at x
    cases x; rfl
  · obtain ⟨l', e', _⟩ := CList.insert_rel r s h1 nm
    rw [e'] at x; cases x

theorem list_insert_ok {l l' : CList} {m : List Nat} (r : CList.Rel l m) {s : Nat} (n : l.elem s = none)
    (x : l.insert s = .ok l') : (∃ m', Nonempty (CList.Rel l' m')) ∧
      ∀ t, l'.elem t ≠ none ↔ t = s ∨ l.elem t ≠ none := by
  have nm : s ∉ m := by
    have := r.elem_isSome s
    rw [n] at this; simpa using this
  by_cases h1 : m.length ≥ 5000000
  · unfold CList.insert at x
    rw [if_pos (by rw [r.size]; exact h1)] at x
    cases x
  · obtain ⟨l2, e', ⟨r2⟩⟩ := CList.insert_rel r s h1 nm
    rw [e'] at x; cases x
    refine ⟨⟨_, ⟨r2⟩⟩, ?_⟩
    intro t
    have a := r2.elem_isSome t
    have b := r.elem_isSome t
    rw [← Option.isSome_iff_ne_none, ← Option.isSome_iff_ne_none, a, b]
    simp

/-- all invariants needed inside an iteration -/
structure Inv (st : ARA) (s0 gl x : Nat) (es : List (Nat × Nat)) : Prop where
  data : Data st
  core : Core st s0 x es
  phase : Phase st
  goal : st.goal = some gl
  hok : HOk st gl
  keys : Keys st

theorem touch_inv {st : ARA} {s0 gl x : Nat} {es : List (Nat × Nat)} (i : Inv st s0 gl x es) (s : Nat) :
    Inv (st.touch s) s0 gl x es :=
  ⟨touch_data i.data s, touch_core i.data i.core s, touch_phase i.data i.phase s,
    by rw [(touch_frame i.data s).goal]; exact i.goal, touch_hok i.data i.goal i.hok s,
    touch_keys i.data i.keys s⟩

/-- the state after the assignments of `g` and the back pointer -/
def setG (st : ARA) (s t n : Nat) : ARA :=
  { st with
      g := upd st.g t n
      par := if st.fwd then upd st.par t (some s) else st.par
      next := if st.fwd then st.next else upd st.next t (some s) }

theorem setG_acc (st : ARA) (s t n u : Nat) : (st.setG s t n).acc u ↔ st.acc u := Iff.rfl
theorem setG_ptr (st : ARA) (s t n u : Nat) :
    (st.setG s t n).ptr u = if u = t then some s else st.ptr u := by
  simp only [setG, ptr]
  by_cases f : st.fwd = true
  · simp only [f, if_true, upd]
  · simp only [f, Bool.false_eq_true, if_false, upd]

theorem setG_G {st : ARA} {s t n : Nat} (a : st.acc t) (u : Nat) :
    (st.setG s t n).G u = if u = t then n else st.G u := by
  simp only [G, setG_acc]
  by_cases q : u = t
  · subst q; simp [a, setG]
  · simp [q, setG, upd_other _ _ q]

/-- Common part of the two cases: `t` has been given the value `v s + c` and now sits in OPEN or INCONS. -/
theorem relax_core {st st' : ARA} {s0 gl s t c : Nat} {es : List (Nat × Nat)}
    (i : Inv st s0 gl s ((t, c) :: es)) (as : st.acc s) (at' : st.acc t) (hb : (t, c) ∈ st.base s)
    (lt : st.v s + c < st.g t) (hp : BP st'.heap) (ho : Ordered st'.heap)
    (hl : ∃ m, Nonempty (CList.Rel st'.incons m))
    (eq : st' = { st.setG s t (st.v s + c) with heap := st'.heap, incons := st'.incons })
    (hin : (keyOf st'.heap t ≠ none ∧ ¬ st'.Inc t ∧ st.iterC t ≠ st.iter) ∨
      (keyOf st'.heap t = none ∧ st'.Inc t ∧ st.iterC t = st.iter))
    (hk : ∀ u, u ≠ t → keyOf st'.heap u = keyOf st.heap u ∧ (st'.Inc u ↔ st.Inc u))
    (hkey : ∀ k, keyOf st'.heap t = some k → k = st'.keyFor t) :
    Inv st' s0 gl s es ∧ Step st st' := by
  have gt : st'.g t = st.v s + c := by rw [eq]; simp [setG]
  have go : ∀ u, u ≠ t → st'.g u = st.g u := by intro u q; rw [eq]; simp [setG, upd_other _ _ q]
  have vE : st'.v = st.v := by rw [eq]; rfl
  have hE : st'.h = st.h := by rw [eq]; rfl
  have iE : st'.iterC = st.iterC := by rw [eq]; rfl
  have cE : st'.callA = st.callA := by rw [eq]; rfl
  have callE : st'.call = st.call := by rw [eq]; rfl
  have itE : st'.iter = st.iter := by rw [eq]; rfl
  have ac : ∀ u, st'.acc u ↔ st.acc u := by intro u; simp only [acc, cE, callE]
  have bE : st'.base = st.base := by rw [eq]; rfl
  have pE : ∀ u, st'.ptr u = if u = t then some s else st.ptr u := by
    intro u; rw [eq]; exact setG_ptr st s t (st.v s + c) u
  have hcE : ∀ u, keyOf st'.heap u ≠ none → u ≠ t → keyOf st.heap u ≠ none := by
    intro u h q; rw [← (hk u q).1]; exact h
  have gG : ∀ u, st'.G u ≤ st.G u := by
    intro u
    simp only [G, ac]
    by_cases q : u = t
    · subst q; simp only [at', if_true, gt]; omega
    · rw [go u q]
  have vV : ∀ u, st'.V u = st.V u := by intro u; simp only [V, ac, vE]
  have t0 : t ≠ s0 := by
    rintro rfl; rw [i.core.startG] at lt; omega
  have gv := i.core.gv t at'
  have fr : Frame st st' := by
    constructor
    all_goals first
      | exact fun u h => (ac u).mpr h
      | exact gG
      | (rw [eq]; rfl)
  refine ⟨⟨⟨hp, ho, hl, ?_, ?_, ?_⟩, ⟨(ac s0).mpr i.core.startAcc, ?_, ?_, ?_, ?_, ?_, ?_, ?_, ?_, ?_, ?_⟩, ⟨?_, ?_, ?_⟩,
    ?_, ?_, ?_⟩, ⟨fr, vV, ?_, ?_⟩⟩
  · intro u; rw [cE, callE]; exact i.data.callLe u
  · intro u h
    rw [ac] at h
    have q : u ≠ t := by rintro rfl; exact h at'
    rw [(hk u q).1]; exact i.data.staleH u h
  · intro u h
    rw [ac] at h
    have q : u ≠ t := by rintro rfl; exact h at'
    have := (hk u q).2
    by_contra x
    exact (this.mp x) (i.data.staleL u h)
  · rw [go s0 (Ne.symm t0)]; exact i.core.startG
  · intro u h
    rw [ac] at h
    rw [vE]
    by_cases q : u = t
    · subst q; rw [gt]; omega
    · rw [go u q]; exact i.core.gv u h
  · intro u h; rw [vE]; exact i.core.vInf u ((ac u).mp h)
  · intro u h; rw [iE, itE]; exact i.core.iterLe u ((ac u).mp h)
  · intro u w k h
    rw [bE] at h
    rcases i.core.edge u w k h with ⟨rfl, hm⟩ | hm
    · rw [List.mem_cons] at hm
      rcases hm with hm | hm
      · right
        cases hm
        rw [vV, V_acc as, G_acc ((ac _).mpr at'), gt]
      · exact .inl ⟨rfl, hm⟩
    · right; rw [vV]; exact Nat.le_trans (gG w) hm
  · intro u h lt' n0
    rw [ac] at h
    rw [pE, vE]
    by_cases q : u = t
    · subst q
      exact ⟨s, c, by simp, by rw [bE]; exact hb, (ac s).mpr as, by rw [gt]⟩
    · rw [go u q] at lt' ⊢
      obtain ⟨p, k, h1, h2, h3, h4⟩ := i.core.ptrOk u h lt' n0
      exact ⟨p, k, by rw [if_neg q]; exact h1, by rw [bE]; exact h2, (ac p).mpr h3, h4⟩
  · intro u h
    rw [vE]
    by_cases q : u = t
    · subst q; rw [gt]; omega
    · rw [go u q]; exact i.core.openLt u (hcE u h q)
  · intro u h
    rw [vE]
    by_cases q : u = t
    · subst q; rw [gt]; omega
    · rw [go u q]; exact i.core.incLt u ((hk u q).2.mp h)
  · intro u h lt'
    rw [ac] at h
    by_cases q : u = t
    · subst q
      rcases hin with x | x
      · exact .inl x.1
      · exact .inr x.2.1
    · rw [vE, go u q] at lt'
      rw [(hk u q).1, (hk u q).2]; exact i.core.ltIn u h lt'
  · rintro u ⟨h1, h2⟩
    by_cases q : u = t
    · subst q
      rcases hin with x | x
      · exact x.2.1 h2
      · exact h1 x.1
    · rw [(hk u q).1] at h1; rw [(hk u q).2] at h2
      exact i.core.disj u ⟨h1, h2⟩
  · rw [itE]; exact i.phase.it
  · intro u h
    rw [iE, itE]
    by_cases q : u = t
    · subst q
      rcases hin with x | x
      · exact x.2.2
      · exact absurd x.1 h
    · exact i.phase.opn u (hcE u h q)
  · intro u h
    rw [iE, itE]
    by_cases q : u = t
    · subst q
      rcases hin with x | x
      · exact absurd h x.2.1
      · exact x.2.2
    · exact i.phase.inc u ((hk u q).2.mp h)
  · rw [fr.goal]; exact i.goal
  · intro u h
    rw [hE, fr.heur]; exact i.hok u ((ac u).mp h)
  · intro u k h
    by_cases q : u = t
    · subst q; exact hkey k h
    · rw [(hk u q).1] at h
      have := i.keys u k h
      rw [this]
      simp only [keyFor, go u q, hE, fr.D, fr.eps]
  · intro u; simp only [closed, ac, iE, itE]
  · intro u _; rw [vE]

theorem updateOne_spec {st : ARA} {s0 gl s t c : Nat} {es : List (Nat × Nat)}
    (i : Inv st s0 gl s ((t, c) :: es)) (as : st.acc s) (hb : (t, c) ∈ st.base s) :
    OkOr (st.updateOne s t c) (fun st' => Inv st' s0 gl s es ∧ Step st st') := by
  have it := i.phase.it
  have s1 := touch_step i.data it t
  have i1 := touch_inv i t
  have at' := touch_acc i.data t
  have as1 := s1.frame.accM s as
  have fE : st.fwd = (st.touch t).fwd := s1.frame.fwd.symm
  have hb1 : (t, c) ∈ (st.touch t).base s := by rw [s1.frame.base]; exact hb
  unfold updateOne
  simp only
  generalize st.touch t = st1 at *
  split
  next lt =>
    have e2 : ({ st1 with
      g := upd st1.g t (st1.v s + c)
      par := if st.fwd then upd st1.par t (some s) else st1.par
      next := if st.fwd then st1.next else upd st1.next t (some s) } : ARA) = st1.setG s t (st1.v s + c) := by
      rw [fE]; rfl
    rw [e2]
    suffices h : OkOr ((st1.setG s t (st1.v s + c)).reinsert t)
        (fun st' => Inv st' s0 gl s es ∧ Step st1 st') from h.imp (fun a x => ⟨x.1, s1.trans x.2⟩)
    have heq : (st1.setG s t (st1.v s + c)).heap = st1.heap := rfl
    have leq : (st1.setG s t (st1.v s + c)).incons = st1.incons := rfl
    unfold reinsert
    rw [heq, leq]
    split
    next ni =>
      have ni' : st1.iterC t ≠ st1.iter := ni
      have nInc : ¬ st1.Inc t := fun h => ni' (i1.phase.inc t h)
      split
      next ix =>
        cases e : st1.heap.update t ((st1.setG s t (st1.v s + c)).keyFor t) with
        | error e =>
          exact absurd ((update_ok_iff st1.heap t _).mpr (by rw [ne_eq, keyOf_none]; exact ix))
            (by rw [e]; simp)
        | ok h' =>
          obtain ⟨b1, b2, _, b4, _⟩ := update_spec i1.data.bp i1.data.ord e
          refine relax_core i1 as1 at' hb1 lt b1 b4 i1.data.lrel rfl (.inl ⟨?_, nInc, ni'⟩) ?_ ?_
          · show keyOf h' t ≠ none
            rw [b2]; simp
          · intro u q
            refine ⟨?_, Iff.rfl⟩
            show keyOf h' u = _
            rw [b2, upd_other _ _ q]
          · intro k hk
            have hk' : keyOf h' t = some k := hk
            rw [b2, upd_same] at hk'
            cases hk'; rfl
      next ix =>
        have ix : st1.heap.idx t = 0 := by simpa using ix
        cases e : st1.heap.insert t ((st1.setG s t (st1.v s + c)).keyFor t) with
        | error e => exact .inl (by rw [heap_insert_err (keyOf_none.mpr ix) e])
        | ok h' =>
          obtain ⟨b1, b2, _, b4, _⟩ := insert_spec i1.data.bp e
          refine relax_core i1 as1 at' hb1 lt b1 (b4 i1.data.ord) i1.data.lrel rfl (.inl ⟨?_, nInc, ni'⟩) ?_ ?_
          · show keyOf h' t ≠ none
            rw [b2]; simp
          · intro u q
            refine ⟨?_, Iff.rfl⟩
            show keyOf h' u = _
            rw [b2, upd_other _ _ q]
          · intro k hk
            have hk' : keyOf h' t = some k := hk
            rw [b2, upd_same] at hk'
            cases hk'; rfl
    next ni =>
      have ni' : st1.iterC t = st1.iter := Decidable.not_not.mp ni
      have nOp : keyOf st1.heap t = none := by
        by_contra h; exact i1.phase.opn t h ni'
      split
      next el =>
        obtain ⟨m, ⟨r⟩⟩ := i1.data.lrel
        cases e : st1.incons.insert t with
        | error e => exact .inr (by rw [list_insert_err r el e])
        | ok l' =>
          obtain ⟨b1, b2⟩ := list_insert_ok r el e
          refine relax_core i1 as1 at' hb1 lt i1.data.bp i1.data.ord b1 rfl (.inr ⟨nOp, ?_, ni'⟩) ?_ ?_
          · exact (b2 t).mpr (.inl rfl)
          · intro u q
            refine ⟨rfl, ?_⟩
            show l'.elem u ≠ none ↔ _
            rw [b2 u]; simp only [q, false_or]; exact Iff.rfl
          · intro k hk
            have hk' : keyOf st1.heap t = some k := hk
            rw [nOp] at hk'; cases hk'
      next el =>
        refine relax_core i1 as1 at' hb1 lt i1.data.bp i1.data.ord i1.data.lrel rfl (.inr ⟨nOp, el, ni'⟩) ?_ ?_
        · intro u q; exact ⟨rfl, Iff.rfl⟩
        · intro k hk
          have hk' : keyOf st1.heap t = some k := hk
          rw [nOp] at hk'; cases hk'
  next ge =>
    refine ⟨⟨i1.data, { i1.core with edge := ?_ }, i1.phase, i1.goal, i1.hok, i1.keys⟩, s1⟩
    intro u w k h
    rcases i1.core.edge u w k h with ⟨rfl, hm⟩ | hm
    · rw [List.mem_cons] at hm
      rcases hm with hm | hm
      · right
        cases hm
        rw [V_acc as1, G_acc at']; omega
      · exact .inl ⟨rfl, hm⟩
    · exact .inr hm

theorem updateAll_spec {s0 gl s : Nat} (es : List (Nat × Nat)) : ∀ {st : ARA}, Inv st s0 gl s es → st.acc s →
    (∀ e ∈ es, e ∈ st.base s) → OkOr (st.updateAll s es) (fun st' => Inv st' s0 gl s [] ∧ Step st st') := by
  induction es with
  | nil => intro st i _ _; exact ⟨i, Step.refl st⟩
  | cons e es ih =>
    intro st i as hb
    obtain ⟨t, c⟩ := e
    have h := updateOne_spec i as (hb _ (by simp))
    unfold updateAll
    cases e : st.updateOne s t c with
    | error x => rw [e] at h; exact h
    | ok st1 =>
      rw [e] at h
      obtain ⟨h1, h2⟩ := h
      have := ih h1 (h2.frame.accM s as) (by
        intro x hx; rw [h2.frame.base]; exact hb x (by simp [hx]))
      exact this.imp (fun a x => ⟨x.1, h2.trans x.2⟩)

/-- `nbr` agrees with the search graph except at the goal -/
def NbrOk (st : ARA) (gl : Nat) : Prop :=
  (∀ s e, e ∈ st.nbr s → e ∈ st.base s) ∧ (∀ s e, s ≠ gl → e ∈ st.base s → e ∈ st.nbr s)

theorem NbrOk.frame {a b : ARA} {gl : Nat} (h : NbrOk a gl) (f : Frame a b) : NbrOk b gl := by
  unfold NbrOk; rw [f.nbr, f.base]; exact h

theorem loopCond_iff {st : ARA} {gl : Nat} : st.loopCond gl = true ↔
    st.heap.size ≠ 0 ∧ (st.heap.kat 1).k0 < 1000000000 ∧ st.heap.kat 1 < st.goalKey gl := by
  unfold loopCond minKey Heap.isEmpty Heap.getMinKey
  by_cases z : st.heap.size = 0
  · simp [z]
  · simp only [z, if_false, Bool.and_eq_true, decide_eq_true_eq, Bool.not_eq_true', beq_eq_false_iff_ne, ne_eq,
      not_false_eq_true, true_and, kat, and_assoc]
    rw [CKey.lt_def]
    simp only [CKey.gtB, Bool.or_eq_true, decide_eq_true_eq, Bool.and_eq_true]
    constructor
    · rintro ⟨h1, h2⟩; exact ⟨h1, by omega⟩
    · rintro ⟨h1, h2⟩; exact ⟨h1, by omega⟩

/-- What one expansion does. -/
structure Expanded (st st' : ARA) (s : Nat) : Prop where
  frame : Frame st st'
  vOther : ∀ t, t ≠ s → st'.V t = st.V t
  vSelf : st'.V s = st.G s
  cl : ∀ t, st'.closed t ↔ t = s ∨ st.closed t
  notCl : ¬ st.closed s
  isMin : ∀ t k, keyOf st.heap t = some k → st.keyFor s ≤ k
  wasOpen : keyOf st.heap s ≠ none

theorem expand_spec {st : ARA} {s0 gl x : Nat} (i : Inv st s0 gl x []) (hn : NbrOk st gl)
    (ag : st.acc gl) (hc : st.loopCond gl = true) :
    OkOr st.expand (fun r => Inv r.2 s0 gl r.1 [] ∧ Expanded st r.2 r.1 ∧ r.1 ≠ gl) := by
  obtain ⟨hz, hm, hg⟩ := loopCond_iff.mp hc
  unfold expand
  cases e : st.heap.deleteMin with
  | error x => exfalso; unfold Heap.deleteMin at e; rw [if_neg hz] at e; cases e
  | ok r =>
    obtain ⟨s, h'⟩ := r
    simp only
    obtain ⟨b1, b2, _, b4, _, k, b5, b6, b7⟩ := deleteMin_spec i.data.bp i.data.ord e
    have hk : k = st.keyFor s := i.keys s k b5
    have so : keyOf st.heap s ≠ none := by rw [b5]; simp
    have as := i.data.openAcc so
    have lt := i.core.openLt s so
    have nc := i.phase.opn s so
    have nI : ¬ st.Inc s := fun h => i.core.disj s ⟨so, h⟩
    have kg : ((st.g s + infl st.D st.eps (st.h s) : Nat) : Int) < 1000000000 := by
      have : k.k0 < 1000000000 := by rw [b6]; exact hm
      rw [hk] at this; exact this
    have sg : s ≠ gl := by
      rintro rfl
      rw [← b6, hk, CKey.lt_def] at hg
      simp only [keyFor, goalKey] at hg
      omega
    generalize hst1 : ({ st with heap := h', v := upd st.v s (st.g s), iterC := upd st.iterC s st.iter } : ARA) = st1
    have hE : st1.heap = h' := by rw [← hst1]
    have gE : st1.g = st.g := by rw [← hst1]
    have lE : st1.incons = st.incons := by rw [← hst1]
    have IE : ∀ u, st1.Inc u ↔ st.Inc u := by intro u; simp only [Inc, lE]
    have vE : st1.v = upd st.v s (st.g s) := by rw [← hst1]
    have iE : st1.iterC = upd st.iterC s st.iter := by rw [← hst1]
    have itE : st1.iter = st.iter := by rw [← hst1]
    have ac : ∀ u, st1.acc u ↔ st.acc u := by intro u; rw [← hst1]; exact Iff.rfl
    have bE : st1.base = st.base := by rw [← hst1]; rfl
    have nE : st1.nbr = st.nbr := by rw [← hst1]; rfl
    have pE : st1.ptr = st.ptr := by rw [← hst1]; rfl
    have GE : st1.G = st.G := by rw [← hst1]; rfl
    have VE : ∀ u, st1.V u = if u = s then st.G s else st.V u := by
      intro u
      simp only [V, ac, vE]
      by_cases q : u = s
      · subst q; simp [as, G_acc as]
      · simp [q, upd_other _ _ q]
    have vLe : ∀ u, st1.acc u → st1.v u ≤ st.v u := by
      intro u _
      rw [vE]; by_cases q : u = s
      · subst q; simp only [upd_same]; omega
      · rw [upd_other _ _ q]
    have ko : ∀ u, keyOf st1.heap u ≠ none → u ≠ s ∧ keyOf st.heap u ≠ none := by
      intro u h
      rw [hE, b2] at h
      by_cases q : u = s
      · subst q; simp at h
      · rw [upd_other _ _ q] at h; exact ⟨q, h⟩
    have ko' : ∀ u, u ≠ s → keyOf st1.heap u = keyOf st.heap u := by
      intro u q; rw [hE, b2, upd_other _ _ q]
    have fr : Frame st st1 := by
      constructor
      all_goals first
        | exact fun u h => (ac u).mpr h
        | exact fun u => Nat.le_of_eq (by rw [GE])
        | (rw [← hst1])
    have inv1 : Inv st1 s0 gl s (st1.nbr s) := by
      refine ⟨⟨by rw [hE]; exact b1, by rw [hE]; exact b4, by rw [lE]; exact i.data.lrel, ?_, ?_, ?_⟩,
        ⟨(ac s0).mpr i.core.startAcc, by rw [gE]; exact i.core.startG, ?_, ?_, ?_, ?_, ?_, ?_, ?_, ?_, ?_⟩,
        ⟨by rw [itE]; exact i.phase.it, ?_, ?_⟩, by rw [fr.goal]; exact i.goal, ?_, ?_⟩
      · intro u; rw [← hst1]; exact i.data.callLe u
      · intro u h
        by_contra x
        exact (h ((ac u).mpr (i.data.openAcc (ko u x).2)))
      · intro u h
        rw [ac] at h
        rw [lE]; exact i.data.staleL u h
      · intro u h
        rw [ac] at h
        rw [gE, vE]; by_cases q : u = s
        · subst q; simp
        · rw [upd_other _ _ q]; exact i.core.gv u h
      · intro u h; exact Nat.le_trans (vLe u h) (i.core.vInf u ((ac u).mp h))
      · intro u h
        rw [iE, itE]; by_cases q : u = s
        · subst q; simp
        · rw [upd_other _ _ q]; exact i.core.iterLe u ((ac u).mp h)
      · intro u w k h
        rw [bE] at h
        by_cases q : u = s
        · subst q; left; exact ⟨rfl, by rw [nE]; exact hn.2 u _ sg h⟩
        · right
          rw [GE, VE, if_neg q]
          rcases i.core.edge u w k h with ⟨_, hm⟩ | hm
          · cases hm
          · exact hm
      · intro u h lt' n0
        rw [gE] at lt' ⊢
        obtain ⟨p, c, h1, h2, h3, h4⟩ := i.core.ptrOk u ((ac u).mp h) lt' n0
        have := vLe p ((ac p).mpr h3)
        exact ⟨p, c, by rw [pE]; exact h1, by rw [bE]; exact h2, (ac p).mpr h3, by omega⟩
      · intro u h
        obtain ⟨q, h⟩ := ko u h
        rw [gE, vE, upd_other _ _ q]; exact i.core.openLt u h
      · intro u h
        rw [IE] at h
        have q : u ≠ s := by rintro rfl; exact nI h
        rw [gE, vE, upd_other _ _ q]; exact i.core.incLt u h
      · intro u h lt'
        rw [gE, vE] at lt'
        have q : u ≠ s := by rintro rfl; simp at lt'
        rw [upd_other _ _ q] at lt'
        rw [ko' u q, IE]
        exact i.core.ltIn u ((ac u).mp h) lt'
      · rintro u ⟨h1, h2⟩
        rw [IE] at h2
        exact i.core.disj u ⟨(ko u h1).2, h2⟩
      · intro u h
        obtain ⟨q, h⟩ := ko u h
        rw [iE, itE, upd_other _ _ q]; exact i.phase.opn u h
      · intro u h
        rw [IE] at h
        have q : u ≠ s := by rintro rfl; exact nI h
        rw [iE, itE, upd_other _ _ q]; exact i.phase.inc u h
      · intro u h
        rw [fr.heur]; rw [ac] at h
        have := i.hok u h
        rw [← hst1]; exact this
      · intro u k' h
        have q : u ≠ s := (ko u (by rw [h]; simp)).1
        rw [ko' u q] at h
        have := i.keys u k' h
        rw [this, ← hst1]; rfl
    have up := updateAll_spec (st1.nbr s) inv1 ((ac s).mpr as) (by
      intro e he; rw [bE]; rw [nE] at he; exact hn.1 s e he)
    cases e2 : st1.updateAll s (st1.nbr s) with
    | error x => rw [e2] at up; exact up
    | ok st2 =>
      rw [e2] at up
      obtain ⟨u1, u2⟩ := up
      refine ⟨u1, ⟨fr.trans u2.frame, ?_, ?_, ?_, ?_, ?_, so⟩, sg⟩
      · intro t q; rw [u2.vEq, VE, if_neg q]
      · rw [u2.vEq, VE, if_pos rfl]
      · intro t
        rw [u2.clEq]
        simp only [closed, ac, iE, itE]
        by_cases q : t = s
        · subst q; simp [as]
        · simp [q, upd_other _ _ q]
      · rintro ⟨_, h⟩; exact nc h
      · intro t k' h; rw [← hk]; exact b7 t k' h

end Sbpl.ARA
