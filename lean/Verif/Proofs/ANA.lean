import Mathlib.Tactic.Linarith
import Mathlib.Tactic.Ring
import Verif.Model.ANA
import Verif.Spec.Graph
import Verif.Proofs.HeapOps
import Verif.Proofs.ARAPath
/-! ANA*: invariants, edge relaxation. -/

namespace Sbpl.ANA
open GraphSpec Heap

abbrev INF : Nat := INFINITECOST

/-- the state's information is up to date -/
def acc (st : ANA) (s : Nat) : Prop := st.callA s = st.call
instance (st : ANA) (s : Nat) : Decidable (st.acc s) := inferInstanceAs (Decidable (_ = _))
/-- effective g value -/
def Ge (st : ANA) (s : Nat) : Nat := if st.acc s then st.g s else INF
/-- effective v value -/
def Ve (st : ANA) (s : Nat) : Nat := if st.acc s then st.v s else INF
/-- back pointer used by this search direction -/
def ptr (st : ANA) (s : Nat) : Option Nat := if st.fwd then st.par s else st.next s
/-- search graph without the absorbing treatment of the goal -/
def base (st : ANA) (s : Nat) : List (Nat × Nat) :=
  if st.fwd then st.env.succs (s + 1) s else st.env.preds (st.start.getD 0) s
/-- in OPEN -/
def Opn (st : ANA) (s : Nat) : Prop := keyOf st.heap s ≠ none

/-- outcome satisfies `P`, or the heap's capacity was hit -/
def OkOr {α : Type} (r : Except PErr α) (P : α → Prop) : Prop :=
  match r with
  | .ok a => P a
  | .error e => e = .heap .full

theorem OkOr.imp {α : Type} {r : Except PErr α} {P Q : α → Prop} (h : OkOr r P) (i : ∀ a, P a → Q a) :
    OkOr r Q := by
  cases r with
  | ok a => exact i a h
  | error e => exact h

/-- data structure invariants, valid between any two steps -/
structure Data (st : ANA) : Prop where
  bp : BP st.heap
  ord : Ordered st.heap
  callLe : ∀ s, st.callA s ≤ st.call
  staleH : ∀ s, ¬ st.acc s → keyOf st.heap s = none

theorem keyOf_none {h : Heap CKey} {s : Nat} : keyOf h s = none ↔ h.idx s = 0 := by simp [keyOf]

theorem Data.opnAcc {st : ANA} (d : Data st) {s : Nat} (h : st.Opn s) : st.acc s := by
  by_contra c; exact h (d.staleH s c)

/-- what a step leaves unchanged -/
structure Frame (a b : ANA) : Prop where
  env : b.env = a.env
  fwd : b.fwd = a.fwd
  call : b.call = a.call
  start : b.start = a.start
  goal : b.goal = a.goal
  bReinit : b.bReinit = a.bReinit
  first : b.first = a.first
  accM : ∀ s, a.acc s → b.acc s
  gLe : ∀ s, b.Ge s ≤ a.Ge s

theorem Frame.refl (a : ANA) : Frame a a :=
  ⟨rfl, rfl, rfl, rfl, rfl, rfl, rfl, fun _ h => h, fun _ => Nat.le_refl _⟩
theorem Frame.trans {a b c : ANA} (x : Frame a b) (y : Frame b c) : Frame a c :=
  ⟨y.env.trans x.env, y.fwd.trans x.fwd, y.call.trans x.call, y.start.trans x.start, y.goal.trans x.goal,
    y.bReinit.trans x.bReinit, y.first.trans x.first, fun s h => y.accM s (x.accM s h),
    fun s => Nat.le_trans (y.gLe s) (x.gLe s)⟩
theorem Frame.nbr {a b : ANA} (f : Frame a b) : b.nbr = a.nbr := by
  funext s; simp only [ANA.nbr, f.env, f.fwd, f.goal, f.start]
theorem Frame.base {a b : ANA} (f : Frame a b) : b.base = a.base := by
  funext s; simp only [ANA.base, f.env, f.fwd, f.start]
theorem Frame.heur {a b : ANA} (f : Frame a b) : b.heur = a.heur := by
  funext gl s; simp only [ANA.heur, f.env, f.fwd]

theorem Ge_acc {st : ANA} {s : Nat} (a : st.acc s) : st.Ge s = st.g s := if_pos a
theorem Ve_acc {st : ANA} {s : Nat} (a : st.acc s) : st.Ve s = st.v s := if_pos a
theorem Ge_stale {st : ANA} {s : Nat} (a : ¬ st.acc s) : st.Ge s = INF := if_neg a
theorem Ve_stale {st : ANA} {s : Nat} (a : ¬ st.acc s) : st.Ve s = INF := if_neg a

/-- state after `touch`, with the (ineffective) reset of the heap index removed -/
theorem touch_eq {st : ANA} (d : Data st) (s : Nat) : st.touch s =
    if st.acc s then st else
      { st with
        g := upd st.g s INFINITECOST, v := upd st.v s INFINITECOST,
        callA := upd st.callA s st.call, next := upd st.next s none, par := upd st.par s none,
        h := upd st.h s (match st.goal with | some gl => st.heur gl s | none => 0) } := by
  unfold touch
  by_cases a : st.acc s
  · rw [if_neg (by intro h; exact h a), if_pos a]
  · rw [if_pos (show st.callA s ≠ st.call from a), if_neg a]
    unfold reinitState
    have e1 : upd st.heap.idx s 0 = st.heap.idx := by
      funext t; simp only [upd]; split
      next q => rw [q]; exact (keyOf_none.mp (d.staleH s a)).symm
      next q => rfl
    rw [e1]
    rfl

theorem touch_other {st : ANA} (d : Data st) (s t : Nat) (h : t ≠ s) :
    (st.touch s).g t = st.g t ∧ (st.touch s).v t = st.v t ∧ (st.touch s).h t = st.h t ∧
    (st.touch s).callA t = st.callA t ∧ (st.touch s).ptr t = st.ptr t := by
  rw [touch_eq d]
  split
  · exact ⟨rfl, rfl, rfl, rfl, rfl⟩
  · simp only [ptr, upd_other _ _ h]
    exact ⟨trivial, trivial, trivial, trivial, trivial⟩

theorem touch_same {st : ANA} (d : Data st) (s : Nat) :
    (st.touch s).heap = st.heap ∧ (st.touch s).call = st.call ∧ (st.touch s).env = st.env ∧
    (st.touch s).fwd = st.fwd ∧ (st.touch s).goal = st.goal ∧ (st.touch s).start = st.start ∧
    (st.touch s).bestG = st.bestG ∧ (st.touch s).epsSat = st.epsSat := by
  rw [touch_eq d]; split <;> exact ⟨rfl, rfl, rfl, rfl, rfl, rfl, rfl, rfl⟩

theorem touch_acc {st : ANA} (d : Data st) (s : Nat) : (st.touch s).acc s := by
  rw [touch_eq d]
  split
  next a => exact a
  next a => simp [acc]

theorem touch_self_acc {st : ANA} (d : Data st) {s : Nat} (a : st.acc s) : st.touch s = st := by
  rw [touch_eq d, if_pos a]

theorem touch_self_new {st : ANA} (d : Data st) {s : Nat} (a : ¬ st.acc s) :
    (st.touch s).g s = INF ∧ (st.touch s).v s = INF ∧
    (st.touch s).h s = (match st.goal with | some gl => st.heur gl s | none => 0) := by
  rw [touch_eq d, if_neg a]
  simp

theorem touch_acc_iff {st : ANA} (d : Data st) (s t : Nat) :
    (st.touch s).acc t ↔ t = s ∨ st.acc t := by
  by_cases c : t = s
  · subst c; simp [touch_acc d]
  · have := touch_other d s t c
    simp only [acc, this.2.2.2.1, (touch_same d s).2.1, c, false_or]

theorem touch_Ge {st : ANA} (d : Data st) (s t : Nat) : (st.touch s).Ge t = st.Ge t := by
  simp only [Ge, touch_acc_iff d]
  by_cases c : t = s
  · subst c
    simp only [true_or, if_true]
    by_cases a : st.acc t
    · rw [touch_self_acc d a, if_pos a]
    · rw [if_neg a, (touch_self_new d a).1]
  · simp only [c, false_or, (touch_other d s t c).1]

theorem touch_Ve {st : ANA} (d : Data st) (s t : Nat) : (st.touch s).Ve t = st.Ve t := by
  simp only [Ve, touch_acc_iff d]
  by_cases c : t = s
  · subst c
    simp only [true_or, if_true]
    by_cases a : st.acc t
    · rw [touch_self_acc d a, if_pos a]
    · rw [if_neg a, (touch_self_new d a).2.1]
  · simp only [c, false_or, (touch_other d s t c).2.1]

theorem touch_frame {st : ANA} (d : Data st) (s : Nat) : Frame st (st.touch s) := by
  have A : ∀ t, st.acc t → (st.touch s).acc t := fun t h => (touch_acc_iff d s t).mpr (.inr h)
  have B : ∀ t, (st.touch s).Ge t ≤ st.Ge t := fun t => Nat.le_of_eq (touch_Ge d s t)
  constructor
  all_goals first
    | exact A
    | exact B
    | (rw [touch_eq d]; split <;> rfl)

theorem touch_data {st : ANA} (d : Data st) (s : Nat) : Data (st.touch s) := by
  obtain ⟨e1, e3, _⟩ := touch_same d s
  refine ⟨by rw [e1]; exact d.bp, by rw [e1]; exact d.ord, ?_, ?_⟩
  · intro t
    by_cases c : t = s
    · subst c; rw [show (st.touch t).callA t = (st.touch t).call from touch_acc d t]
    · rw [(touch_other d s t c).2.2.2.1, e3]; exact d.callLe t
  · intro t h
    rw [touch_acc_iff d, not_or] at h
    rw [e1]; exact d.staleH t h.2

/-- invariant behind the validity of paths -/
structure Core (st : ANA) (s0 : Nat) : Prop where
  startAcc : st.acc s0
  startG : st.g s0 = 0
  gv : ∀ s, st.acc s → st.g s ≤ st.v s
  vInf : ∀ s, st.acc s → st.v s ≤ INF
  ptrOk : ∀ s, st.acc s → st.g s < INF → s ≠ s0 →
    ∃ p c, st.ptr s = some p ∧ (s, c) ∈ st.base p ∧ st.acc p ∧ st.v p + c ≤ st.g s
  opnFin : ∀ s, st.Opn s → st.g s < INF
  bestLe : st.bestG ≤ INF

theorem Core.le {st : ANA} {s0 : Nat} (c : Core st s0) (s : Nat) : st.Ge s ≤ st.Ve s ∧ st.Ve s ≤ INF := by
  by_cases a : st.acc s
  · rw [Ge_acc a, Ve_acc a]; exact ⟨c.gv s a, c.vInf s a⟩
  · rw [Ge_stale a, Ve_stale a]; exact ⟨Nat.le_refl _, Nat.le_refl _⟩

theorem touch_core {st : ANA} (d : Data st) {s0 : Nat} (c : Core st s0) (s : Nat) : Core (st.touch s) s0 := by
  by_cases a : st.acc s
  · rw [touch_self_acc d a]; exact c
  obtain ⟨n1, n2, n4⟩ := touch_self_new d a
  obtain ⟨e1, e3, _, _, _, _, e7, _⟩ := touch_same d s
  have fr := touch_frame d s
  have ne0 : s0 ≠ s := by rintro rfl; exact a c.startAcc
  have ai := touch_acc_iff d s
  have oth := touch_other d s
  have nes : ∀ t, (st.touch s).acc t → t ≠ s → st.acc t := fun t h q => (((ai t).mp h).resolve_left q)
  refine ⟨(ai _).mpr (.inr c.startAcc), by rw [(oth _ ne0).1]; exact c.startG, ?_, ?_, ?_, ?_, by rw [e7]; exact c.bestLe⟩
  · intro t h
    by_cases q : t = s
    · subst q; rw [n1, n2]
    · rw [(oth t q).1, (oth t q).2.1]; exact c.gv t (nes t h q)
  · intro t h
    by_cases q : t = s
    · subst q; rw [n2]
    · rw [(oth t q).2.1]; exact c.vInf t (nes t h q)
  · intro t h lt n0
    by_cases q : t = s
    · subst q; rw [n1] at lt; omega
    · rw [(oth t q).1] at lt ⊢
      obtain ⟨p, k, h1, h2, h3, h4⟩ := c.ptrOk t (nes t h q) lt n0
      have ps : p ≠ s := by rintro rfl; exact a h3
      exact ⟨p, k, by rw [(oth t q).2.2.2.2]; exact h1, by rw [fr.base]; exact h2, (ai p).mpr (.inr h3),
        by rw [(oth p ps).2.1]; exact h4⟩
  · intro t h
    have h' : st.Opn t := by rw [Opn, e1] at h; exact h
    have q : t ≠ s := by rintro rfl; exact a (d.opnAcc h')
    rw [(oth t q).1]; exact c.opnFin t h'

/-- heuristic values are those for the goal `gl` -/
def HOk (st : ANA) (gl : Nat) : Prop := ∀ s, st.acc s → st.h s = st.heur gl s

theorem touch_hok {st : ANA} (d : Data st) {gl : Nat} (g : st.goal = some gl) (c : HOk st gl) (s : Nat) :
    HOk (st.touch s) gl := by
  intro t h
  rw [(touch_frame d s).heur]
  by_cases a : st.acc s
  · rw [touch_self_acc d a] at h ⊢; exact c t h
  by_cases q : t = s
  · subst q; rw [(touch_self_new d a).2.2, g]
  · rw [(touch_other d s t q).2.2.1]; exact c t (((touch_acc_iff d s t).mp h).resolve_left q)

/-- invariant behind the suboptimality bound; `x` is the state being expanded, `es` its edges not processed yet -/
structure Live (st : ANA) (gl x : Nat) (es : List (Nat × Nat)) : Prop where
  hok : HOk st gl
  gG : st.Ge gl ≤ st.bestG
  vGoal : st.Ve gl = INF
  edge : ∀ u t c, (t, c) ∈ st.base u → (u = x ∧ (t, c) ∈ es) ∨ st.Ge t ≤ st.Ve u + c ∨
    st.bestG ≤ st.Ve u + c + st.heur gl t
  pend : ∀ s, st.acc s → st.g s < st.v s → st.Opn s ∨ st.bestG ≤ st.g s + st.heur gl s

theorem touch_live {st : ANA} (d : Data st) {gl x : Nat} {es : List (Nat × Nat)} (g : st.goal = some gl)
    (l : Live st gl x es) (s : Nat) : Live (st.touch s) gl x es := by
  obtain ⟨e1, e3, _, _, _, _, e7, _⟩ := touch_same d s
  have fr := touch_frame d s
  refine ⟨touch_hok d g l.hok s, by rw [touch_Ge d, e7]; exact l.gG, by rw [touch_Ve d]; exact l.vGoal, ?_, ?_⟩
  · intro u t c h
    rw [fr.base] at h
    rw [touch_Ge d, touch_Ve d, e7, fr.heur]; exact l.edge u t c h
  · intro t h lt
    by_cases a : st.acc s
    · rw [touch_self_acc d a] at h lt ⊢; exact l.pend t h lt
    obtain ⟨n1, n2, n4⟩ := touch_self_new d a
    by_cases q : t = s
    · subst q; rw [n1, n2] at lt; omega
    · have oth := touch_other d s t q
      rw [oth.1, oth.2.1] at lt
      rw [Opn, e1, e7, oth.1, fr.heur]
      exact l.pend t (((touch_acc_iff d s t).mp h).resolve_left q) lt

theorem heap_insert_err {h : Heap CKey} {s : Nat} {k : CKey} (n : keyOf h s = none) {e : HeapErr}
    (x : h.insert s k = .error e) : e = .full := ARA.heap_insert_err n x

/-- the assignment of g and the back pointer (ANAplanner.cpp:253-255, 288-289) -/
def setG (st : ANA) (s t n : Nat) : ANA :=
  { st with
    g := upd st.g t n
    par := if st.fwd then upd st.par t (some s) else st.par
    next := if st.fwd then st.next else upd st.next t (some s) }

theorem setG_ptr (st : ANA) (s t n u : Nat) :
    (st.setG s t n).ptr u = if u = t then some s else st.ptr u := by
  unfold setG ptr
  by_cases f : st.fwd = true
  · simp only [f, if_true, upd]
  · simp only [Bool.not_eq_true] at f
    simp only [f, Bool.false_eq_true, if_false, upd]

/-- result of `reinsert`: only the heap changes and `t` is in OPEN -/
theorem reinsert_spec {st : ANA} (d : Data st) (t : Nat) (a : st.acc t) :
    OkOr (st.reinsert t) (fun r => ∃ h, r = { st with heap := h } ∧ Data r ∧
      keyOf h = upd (keyOf st.heap) t (some (st.keyFor t)) ∧
      h.size = st.heap.size + (if keyOf st.heap t = none then 1 else 0)) := by
  have stale : ∀ (h : Heap CKey), keyOf h = upd (keyOf st.heap) t (some (st.keyFor t)) →
      ∀ s, ¬ ({ st with heap := h } : ANA).acc s → keyOf h s = none := by
    intro h e s n
    have : s ≠ t := by rintro rfl; exact n a
    rw [e, upd_other _ _ this]; exact d.staleH s n
  unfold reinsert
  by_cases c : st.heap.idx t = 0
  · rw [if_neg (by simpa using c)]
    have n : keyOf st.heap t = none := keyOf_none.mpr c
    cases e : st.heap.insert t (st.keyFor t) with
    | error x => simp only [OkOr]; rw [heap_insert_err n e]
    | ok h =>
      obtain ⟨s1, s2, s3, s4, _, _⟩ := insert_spec d.bp e
      exact ⟨h, rfl, ⟨s1, s4 d.ord, d.callLe, stale h s2⟩, s2, by rw [if_pos n]; exact s3⟩
  · rw [if_pos c]
    have n : keyOf st.heap t ≠ none := fun q => c (keyOf_none.mp q)
    cases e : st.heap.update t (st.keyFor t) with
    | error x =>
      obtain ⟨h', q⟩ := (update_ok_iff st.heap t (st.keyFor t)).mpr n
      rw [e] at q; cases q
    | ok h =>
      obtain ⟨s1, s2, s3, s4, _, _⟩ := update_spec d.bp d.ord e
      exact ⟨h, rfl, ⟨s1, s4, d.callLe, stale h s2⟩, s2, by rw [if_neg n]; simpa using s3⟩

/-- the keys in OPEN are those of the current g, h and G -/
def Keys (st : ANA) : Prop := ∀ s k, keyOf st.heap s = some k → k = st.keyFor s

/-- what relaxing one edge out of `s` does to the rest of the state -/
structure Relaxed (st st' : ANA) (s t c : Nat) : Prop where
  frame : Frame st st'
  data : Data st'
  best : st'.bestG = st.bestG
  eps : st'.epsSat = st.epsSat
  accT : st'.acc t
  gs : st'.g s = st.g s
  vs : st'.v s = st.v s
  ve : ∀ u, st'.Ve u = st.Ve u
  opn : ∀ u, st'.Opn u → st.Opn u ∨ u = t
  opnM : ∀ u, st.Opn u → st'.Opn u
  keys : Keys st → Keys st'
  hs : ∀ u, st.acc u → st'.h u = st.h u
  hnew : ∀ gl, st.goal = some gl → ∀ u, ¬ st.acc u → st'.acc u → st'.h u = st.heur gl u
  /-- either nothing relevant happened, or `t` was improved -/
  cases : ((∀ u, st'.Ge u = st.Ge u) ∧ st'.heap = st.heap) ∨
    (st'.Ge t = st.g s + c ∧ st.g s + c < st.Ge t ∧ (∀ u, u ≠ t → st'.Ge u = st.Ge u) ∧
      st'.heap.size ≤ st.heap.size + 1 ∧ st'.Opn t ∧ st'.h t + st'.g t < st.bestG ∧ t ≠ s)

theorem updateOne_spec {st : ANA} {s0 s t c : Nat} (d : Data st) (co : Core st s0) (a : st.acc s)
    (gs : st.g s = st.v s) (hc : (t, c) ∈ st.base s) :
    OkOr (st.updateOne s t c) (fun r => Relaxed st r s t c ∧ Core r s0 ∧
      ∀ gl es, st.goal = some gl → Live st gl s ((t, c) :: es) → Live r gl s es) := by
  have d1 := touch_data d t
  have c1 := touch_core d co t
  have fr := touch_frame d t
  have at1 := touch_acc d t
  have as1 : (st.touch t).acc s := fr.accM s a
  have sg : (st.touch t).g s = st.g s := by
    have := touch_Ge d t s; rwa [Ge_acc as1, Ge_acc a] at this
  have sv : (st.touch t).v s = st.v s := by
    have := touch_Ve d t s; rwa [Ve_acc as1, Ve_acc a] at this
  have tG := touch_Ge d t
  have tV := touch_Ve d t
  obtain ⟨e1, e3, _, _, e5, _, e7, e8⟩ := touch_same d t
  have li : ∀ gl es, st.goal = some gl → Live st gl s es → Live (st.touch t) gl s es :=
    fun gl es g l => touch_live d g l t
  have hc1 : (t, c) ∈ (st.touch t).base s := by rw [fr.base]; exact hc
  have gvt := c1.gv t at1
  have hsame : ∀ u, st.acc u → (st.touch t).h u = st.h u := by
    intro u hu
    by_cases q : u = t
    · subst q; rw [touch_self_acc d hu]
    · exact (touch_other d t u q).2.2.1
  have v1 := c1.vInf t at1
  have hnew : ∀ gl, st.goal = some gl → ∀ u, ¬ st.acc u → (st.touch t).acc u → (st.touch t).h u = st.heur gl u := by
    intro gl hg u h1 h2
    have q : u = t := ((touch_acc_iff d t u).mp h2).resolve_right h1
    subst q
    rw [(touch_self_new d h1).2.2, hg]
  unfold updateOne
  dsimp only
  by_cases cond : (st.touch t).g t > (st.touch t).g s + c ∧
      (st.touch t).g s + c + (st.touch t).h t < (st.touch t).bestG
  rotate_left
  · rw [if_neg cond]
    refine ⟨⟨fr, d1, e7, e8, at1, sg, sv, tV, ?_, ?_, ?_, ?_, ?_, .inl ⟨tG, e1⟩⟩, c1, ?_⟩
    · intro u h; rw [Opn, e1] at h; exact .inl h
    · intro u h; rw [Opn, e1]; exact h
    · intro ks u k h
      rw [e1] at h
      have q := ks u k h
      have au : st.acc u := d.opnAcc (by rw [Opn, h]; simp)
      rw [q]
      unfold keyFor eKey
      rw [e7, hsame u au, show (st.touch t).g u = st.g u from by
        have := tG u; rwa [Ge_acc (fr.accM u au), Ge_acc au] at this]
    · exact hsame
    · exact hnew
    · intro gl es g l
      have l1 := li gl _ g l
      refine ⟨l1.hok, l1.gG, l1.vGoal, ?_, l1.pend⟩
      intro u t' c' h
      rcases l1.edge u t' c' h with ⟨q, h'⟩ | h'
      · rcases List.mem_cons.mp h' with h' | h'
        · cases h'; subst q
          right
          rw [Ge_acc at1, Ve_acc as1, ← l1.hok t at1, sv, ← gs]
          rw [sg] at cond
          omega
        · exact .inl ⟨q, h'⟩
      · exact .inr h'
  · rw [if_pos cond]
    obtain ⟨k1, k2⟩ := cond
    generalize hx : st.touch t = x at *
    change OkOr ((({ x with
      g := upd x.g t (x.g s + c)
      par := if st.fwd then upd x.par t (some s) else x.par
      next := if st.fwd then x.next else upd x.next t (some s) } : ANA)).reinsert t) _
    have hfw : st.fwd = x.fwd := fr.fwd.symm
    rw [hfw]
    change OkOr ((x.setG s t (x.g s + c)).reinsert t) _
    have ne : t ≠ s := by rintro rfl; omega
    have ne' : s ≠ t := fun q => ne q.symm
    generalize hy : x.setG s t (x.g s + c) = y
    have yacc : ∀ u, y.acc u ↔ x.acc u := by intro u; rw [← hy]; exact Iff.rfl
    have yg : ∀ u, u ≠ t → y.g u = x.g u := by intro u q; rw [← hy]; exact upd_other _ _ q
    have ygt : y.g t = x.g s + c := by rw [← hy]; exact upd_same _ _ _
    have yv : y.v = x.v := by rw [← hy]; rfl
    have yh : y.h = x.h := by rw [← hy]; rfl
    have yheap : y.heap = x.heap := by rw [← hy]; rfl
    have ybase : y.base = x.base := by rw [← hy]; rfl
    have yheur : y.heur = x.heur := by rw [← hy]; rfl
    have ybest : y.bestG = x.bestG := by rw [← hy]; rfl
    have yptr : ∀ u, y.ptr u = if u = t then some s else x.ptr u := by intro u; rw [← hy]; exact setG_ptr ..
    have dy : Data y := by
      refine ⟨by rw [yheap]; exact d1.bp, by rw [yheap]; exact d1.ord, by rw [← hy]; exact d1.callLe, ?_⟩
      intro u h; rw [yheap]; exact d1.staleH u (fun q => h ((yacc u).mpr q))
    have yGt : y.Ge t = x.g s + c := by rw [Ge_acc ((yacc t).mpr at1), ygt]
    have yG : ∀ u, u ≠ t → y.Ge u = x.Ge u := by
      intro u q
      by_cases h : x.acc u
      · rw [Ge_acc ((yacc u).mpr h), Ge_acc h, yg u q]
      · rw [Ge_stale (fun z => h ((yacc u).mp z)), Ge_stale h]
    have yV : ∀ u, y.Ve u = x.Ve u := by
      intro u; simp only [Ve, yacc, yv]
    have frxy : Frame x y := by
      constructor
      case accM => exact fun u h => (yacc u).mpr h
      case gLe =>
        intro u
        by_cases q : u = t
        · subst q; rw [yGt, Ge_acc at1]; omega
        · rw [yG u q]
      all_goals (rw [← hy]; rfl)
    refine (reinsert_spec dy t ((yacc t).mpr at1)).imp ?_
    rintro r ⟨h, rfl, dr, hk, hs⟩
    have rOpn : ∀ u, ({ y with heap := h } : ANA).Opn u ↔ u = t ∨ x.Opn u := by
      intro u
      show keyOf h u ≠ none ↔ _
      rw [hk]
      by_cases q : u = t
      · subst q; simp
      · rw [upd_other _ _ q, yheap]; simp [q, Opn]
    have rfr : Frame x ({ y with heap := h } : ANA) :=
      frxy.trans ⟨rfl, rfl, rfl, rfl, rfl, rfl, rfl, fun _ h => h, fun _ => Nat.le_refl _⟩
    have core : Core ({ y with heap := h } : ANA) s0 := by
      have n0 : t ≠ s0 := by
        rintro rfl
        have := c1.startG; omega
      refine ⟨(yacc _).mpr c1.startAcc, (yg _ (Ne.symm n0)).trans c1.startG, ?_, ?_, ?_, ?_, ?_⟩
      · intro u hu
        show y.g u ≤ y.v u
        rw [yv]
        by_cases q : u = t
        · subst q; rw [ygt]; omega
        · rw [yg u q]; exact c1.gv u ((yacc u).mp hu)
      · intro u hu
        show y.v u ≤ INF
        rw [yv]; exact c1.vInf u ((yacc u).mp hu)
      · intro u hu lt nu
        change y.g u < INF at lt
        show ∃ p c, y.ptr u = some p ∧ (u, c) ∈ y.base p ∧ y.acc p ∧ y.v p + c ≤ y.g u
        by_cases q : u = t
        · subst q
          refine ⟨s, c, by rw [yptr, if_pos rfl], by rw [ybase]; exact hc1, (yacc s).mpr as1, ?_⟩
          rw [yv, ygt, sv, sg, gs]
        · rw [yg u q] at lt ⊢
          obtain ⟨p, k, h1, h2, h3, h4⟩ := c1.ptrOk u ((yacc u).mp hu) lt nu
          exact ⟨p, k, by rw [yptr, if_neg q]; exact h1, by rw [ybase]; exact h2, (yacc p).mpr h3, by rw [yv]; exact h4⟩
      · intro u hu
        show y.g u < INF
        by_cases q : u = t
        · subst q; rw [ygt]; omega
        · rw [yg u q]; exact c1.opnFin u (((rOpn u).mp hu).resolve_left q)
      · show y.bestG ≤ INF
        rw [ybest]; exact c1.bestLe
    have rl : Relaxed st ({ y with heap := h } : ANA) s t c := by
      refine ⟨fr.trans rfr, dr, ?_, ?_, (yacc t).mpr at1, ?_, ?_, ?_, ?_, ?_, ?_, ?_, ?_, .inr ⟨?_, ?_, ?_, ?_, ?_, ?_, ne⟩⟩
      · exact ybest.trans e7
      · show y.epsSat = _; rw [← hy]; exact e8
      · exact (yg s ne').trans sg
      · show y.v s = _; rw [yv, sv]
      · intro u; exact (yV u).trans (tV u)
      · intro u hu
        rcases (rOpn u).mp hu with q | q
        · exact .inr q
        · left; rw [Opn, e1] at q; exact q
      · intro u hu; refine (rOpn u).mpr (.inr ?_); rw [Opn, e1]; exact hu
      · intro ks u k hu
        change keyOf h u = some k at hu
        rw [hk] at hu
        by_cases q : u = t
        · subst q; rw [upd_same] at hu; cases hu; rfl
        · rw [upd_other _ _ q, yheap, e1] at hu
          have au : st.acc u := d.opnAcc (by rw [Opn, hu]; simp)
          rw [ks u k hu]
          show st.keyFor u = y.keyFor u
          unfold keyFor eKey
          rw [ybest, e7, yh, hsame u au, yg u q, show x.g u = st.g u from by
            have := tG u; rwa [Ge_acc (fr.accM u au), Ge_acc au] at this]
      · intro u hu
        show y.h u = _
        rw [yh]; exact hsame u hu
      · intro gl hg u h1 h2
        show y.h u = _
        rw [yh]; exact hnew gl hg u h1 ((yacc u).mp h2)
      · show y.Ge t = _; rw [yGt, sg]
      · rw [← tG t, Ge_acc at1, ← sg]; exact k1
      · intro u q; exact (yG u q).trans (tG u)
      · show h.size ≤ _
        rw [hs, yheap, e1]; split <;> omega
      · exact (rOpn t).mpr (.inl rfl)
      · show y.h t + y.g t < _
        rw [yh, ygt, ← e7]; omega
    refine ⟨rl, core, ?_⟩
    intro gl es g l
    have l1 := li gl _ g l
    have hh : ({ y with heap := h } : ANA).heur = x.heur := yheur
    refine ⟨?_, ?_, ?_, ?_, ?_⟩
    · intro u hu
      show y.h u = y.heur gl u
      rw [yh, yheur]; exact l1.hok u ((yacc u).mp hu)
    · show y.Ge gl ≤ y.bestG
      rw [ybest]; exact Nat.le_trans (frxy.gLe gl) l1.gG
    · show y.Ve gl = INF
      rw [yV]; exact l1.vGoal
    · intro u t' c' hm
      change (t', c') ∈ y.base u at hm
      rw [ybase] at hm
      show _ ∨ y.Ge t' ≤ y.Ve u + c' ∨ y.bestG ≤ y.Ve u + c' + y.heur gl t'
      rw [yV, ybest, yheur]
      have := frxy.gLe t'
      rcases l1.edge u t' c' hm with ⟨q, h'⟩ | h' | h'
      · rcases List.mem_cons.mp h' with h' | h'
        · cases h'; subst q
          right; left
          rw [yGt, Ve_acc as1, sv, ← gs, sg]
        · exact .inl ⟨q, h'⟩
      · exact .inr (.inl (by omega))
      · exact .inr (.inr h')
    · intro u hu lt
      change y.g u < y.v u at lt
      show _ ∨ y.bestG ≤ y.g u + y.heur gl u
      by_cases q : u = t
      · exact .inl ((rOpn u).mpr (.inl q))
      · rw [yg u q, yv] at lt
        rw [ybest, yg u q, yheur]
        rcases l1.pend u ((yacc u).mp hu) lt with h' | h'
        · exact .inl ((rOpn u).mpr (.inr h'))
        · exact .inr h'

end Sbpl.ANA
