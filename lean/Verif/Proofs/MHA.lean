import Mathlib.Tactic.Linarith
import Mathlib.Tactic.Ring
import Mathlib.Data.List.Nodup
import Verif.Model.MHA
import Verif.Spec.Graph
import Verif.Proofs.HeapOps
import Verif.Proofs.HeapRefine
/-! Invariants of the MHA* model. -/

namespace Sbpl.MHA
open GraphSpec Heap

abbrev INF : Nat := INFINITECOST

/-- visited in this call -/
def acc (st : MHA) (s : Nat) : Prop := st.callA s = st.call
instance (st : MHA) (s : Nat) : Decidable (st.acc s) := inferInstanceAs (Decidable (_ = _))

/-- the back pointers lead from `s` to the start -/
inductive Chain (bp : Nat → Option Nat) (s0 : Nat) : Nat → Prop
  | root : bp s0 = none → Chain bp s0 s0
  | step {s p : Nat} : bp s = some p → Chain bp s0 p → Chain bp s0 s

/-- the anchor heuristic is zero at the goal, and the inflated values decrease along an edge by at most N/M times its cost -/
def Good (st : MHA) (gl N M : Nat) : Prop :=
  M ≤ N ∧ st.hs 0 gl gl = 0 ∧ UpTo (st.env.succs gl) (st.hs 0 gl) st.D st.eps N M

/-- the only exception: a heap is full -/
def OkOr {α : Type} (r : Except PErr α) (P : α → Prop) : Prop :=
  match r with
  | .ok a => P a
  | .error e => e = .heap .full

theorem OkOr.imp {α : Type} {r : Except PErr α} {P Q : α → Prop} (h : OkOr r P) (i : ∀ a, P a → Q a) : OkOr r Q := by
  cases r with
  | ok a => exact i a h
  | error e => exact h

/-- invariant of a search; the edges `es` of state `x` are still to be handled -/
structure Ok (st : MHA) (s0 gl x : Nat) (es : List (Nat × Nat)) : Prop where
  heap : ∀ i, i ≤ st.hcount → BP (st.opn i) ∧ Ordered (st.opn i)
  stale : ∀ s, ¬ st.acc s → ∀ i, i ≤ st.hcount → keyOf (st.opn i) s = none
  callLe : ∀ s, st.callA s ≤ st.call
  hval : ∀ s, st.acc s → ∀ i, i ≤ st.hcount → st.h i s = st.hs i gl s
  accS : st.acc s0
  gS : st.g s0 = 0
  bpS : st.bp s0 = none
  accG : st.acc gl
  vle : ∀ s, st.acc s → st.v s ≤ INF
  gv : ∀ s, st.acc s → st.g s ≤ st.v s
  key0 : ∀ s k, keyOf (st.opn 0) s = some k → k = ⟨(st.key s 0 : Int), 0⟩ ∧ st.g s < INF
  keyi : ∀ i, i ≤ st.hcount → ∀ s k, keyOf (st.opn i) s = some k → (st.g s : Int) ≤ k.k0 ∧ keyOf (st.opn 0) s ≠ none
  par : ∀ s p, st.acc s → st.bp s = some p →
    st.acc p ∧ st.v p < INF ∧ ∃ c, (s, c) ∈ st.env.succs gl p ∧ st.g p + c ≤ st.g s
  infBp : ∀ s, st.acc s → st.g s = INF → st.bp s = none
  chain : ∀ s, st.acc s → st.g s < INF → Chain st.bp s0 s
  anc : ∀ s, st.acc s → st.cAnc s = true → ∀ i, i ≤ st.hcount → keyOf (st.opn i) s = none
  add : ∀ s, st.acc s → st.cAdd s = true → ∀ i, 1 ≤ i → i ≤ st.hcount → keyOf (st.opn i) s = none
  front : ∀ s, st.acc s → st.g s < st.v s → keyOf (st.opn 0) s ≠ none ∨ st.cAnc s = true
  rel : ∀ s, st.acc s → st.v s < INF → ∀ t c, (t, c) ∈ st.env.succs gl s →
    (s = x ∧ (t, c) ∈ es) ∨ (st.acc t ∧ st.g t ≤ st.v s + c)
  nd : st.trace.Nodup
  trA : ∀ s, (s, true) ∈ st.trace ↔ st.acc s ∧ st.cAnc s = true
  trB : ∀ s, (s, false) ∈ st.trace ↔ st.acc s ∧ st.cAdd s = true
  vtr : ∀ s, st.acc s → (st.v s < INF ↔ ∃ b, (s, b) ∈ st.trace)
  goalNot : ∀ b, (gl, b) ∉ st.trace
  order : st.trace.Pairwise (fun a b => a.1 = b.1 → b.2 = false)
  len : st.numExp = st.trace.length
  bound : ∀ N M, Good st gl N M → ∀ s, st.acc s → st.cAnc s = true → ∀ n, Walk (st.env.succs gl) s0 s n → M * st.v s ≤ N * n

/-- the parameters of the search are unchanged -/
structure Frame (a b : MHA) : Prop where
  env : b.env = a.env
  hs : b.hs = a.hs
  hcount : b.hcount = a.hcount
  D : b.D = a.D
  call : b.call = a.call
  start : b.start = a.start
  goal : b.goal = a.goal
  ime : b.initEpsMha = a.initEpsMha
  me : b.maxExp = a.maxExp
  eps : b.eps = a.eps
  epsMha : b.epsMha = a.epsMha

theorem Frame.refl (a : MHA) : Frame a a := ⟨rfl, rfl, rfl, rfl, rfl, rfl, rfl, rfl, rfl, rfl, rfl⟩
theorem Frame.trans {a b c : MHA} (x : Frame a b) (y : Frame b c) : Frame a c := by
  constructor <;> simp only [x.env, y.env, x.hs, y.hs, x.hcount, y.hcount, x.D, y.D, x.call, y.call, x.start, y.start,
    x.goal, y.goal, x.ime, y.ime, x.me, y.me, x.eps, y.eps, x.epsMha, y.epsMha]

theorem keyOf_none {K : Type} [LinearOrder K] {h : Heap K} {s : Nat} : keyOf h s = none ↔ h.idx s = 0 := by
  simp [keyOf]

/-! ## reinit -/

theorem reinit_eq {st : MHA} (hst : ∀ s, ¬ st.acc s → ∀ i, i ≤ st.hcount → keyOf (st.opn i) s = none) (gl s : Nat) :
    st.reinitState gl s = if st.acc s then st else
      { st with
        callA := upd st.callA s st.call, g := upd st.g s INFINITECOST, v := upd st.v s INFINITECOST,
        bp := upd st.bp s none, cAnc := upd st.cAnc s false, cAdd := upd st.cAdd s false,
        h := fun i => if i ≤ st.hcount then upd (st.h i) s (st.hs i gl s) else st.h i } := by
  unfold reinitState
  by_cases a : st.acc s
  · rw [if_neg (by intro h; exact h a), if_pos a]
  · rw [if_pos (show st.callA s ≠ st.call from a), if_neg a]
    have e : (fun i => if i ≤ st.hcount then { st.opn i with idx := upd (st.opn i).idx s 0 } else st.opn i) = st.opn := by
      funext i
      split
      next hi =>
        have e1 : upd (st.opn i).idx s 0 = (st.opn i).idx := by
          funext t; simp only [upd]; split
          next q => rw [q]; exact (keyOf_none.mp (hst s a i hi)).symm
          next q => rfl
        rw [e1]
      next => rfl
    rw [e]

theorem reinit_frame (st : MHA) (gl s : Nat) : Frame st (st.reinitState gl s) := by
  unfold reinitState; split <;> exact ⟨rfl, rfl, rfl, rfl, rfl, rfl, rfl, rfl, rfl, rfl, rfl⟩

theorem chain_congr {f f' : Nat → Option Nat} {s0 s : Nat} (P : Nat → Prop) (hP : ∀ s, P s → f' s = f s)
    (hc : ∀ s p, P s → f s = some p → P p) (hs : P s) (h : Chain f s0 s) : Chain f' s0 s := by
  induction h with
  | root e => exact .root (by rw [hP _ hs]; exact e)
  | step e _ ih => exact .step (by rw [hP _ hs]; exact e) (ih (hc _ _ hs e))

theorem reinit_ok {st : MHA} {s0 gl x : Nat} {es : List (Nat × Nat)} (o : Ok st s0 gl x es) (t : Nat) :
    Ok (st.reinitState gl t) s0 gl x es ∧ (st.reinitState gl t).acc t ∧
    (∀ s, st.acc s → (st.reinitState gl t).acc s ∧ (st.reinitState gl t).g s = st.g s ∧ (st.reinitState gl t).v s = st.v s) := by
  rw [reinit_eq o.stale]
  by_cases a : st.acc t
  · rw [if_pos a]; exact ⟨o, a, fun s h => ⟨h, rfl, rfl⟩⟩
  rw [if_neg a]
  -- accessed states differ from t
  have ne : ∀ s, st.acc s → s ≠ t := fun s h e => a (e ▸ h)
  have hacc : ∀ s, (upd st.callA t st.call s = st.call) ↔ s = t ∨ st.acc s := by
    intro s
    by_cases e : s = t
    · simp [e]
    · simp [upd_other _ _ e, e, acc]
  have kt : ∀ i, i ≤ st.hcount → keyOf (st.opn i) t = none := o.stale t a
  have ntr : ∀ b, (t, b) ∉ st.trace := by
    intro b h
    cases b
    · exact a ((o.trB t).mp h).1
    · exact a ((o.trA t).mp h).1
  have s0t : s0 ≠ t := ne s0 o.accS
  have k0 : ∀ s k, keyOf (st.opn 0) s = some k → s ≠ t := by
    intro s k h e; rw [e, kt 0 (Nat.zero_le _)] at h; cases h
  have ki : ∀ i, i ≤ st.hcount → ∀ s k, keyOf (st.opn i) s = some k → s ≠ t := by
    intro i hi s k h e; rw [e, kt i hi] at h; cases h
  refine ⟨?_, by simp [acc], fun s h => ?_⟩
  swap
  · have := ne s h
    exact ⟨(hacc s).mpr (.inr h), upd_other _ _ this, upd_other _ _ this⟩
  constructor
  · exact o.heap
  · intro s h i hi
    by_cases e : s = t
    · rw [e]; exact kt i hi
    · exact o.stale s (fun c => h ((hacc s).mpr (.inr c))) i hi
  · intro s
    show upd st.callA t st.call s ≤ st.call
    by_cases e : s = t
    · simp [e]
    · rw [upd_other _ _ e]; exact o.callLe s
  · intro s h i hi
    show (if i ≤ st.hcount then upd (st.h i) t (st.hs i gl t) else st.h i) s = st.hs i gl s
    rw [if_pos hi]
    by_cases e : s = t
    · simp [e]
    · rw [upd_other _ _ e]
      exact o.hval s (((hacc s).mp h).resolve_left e) i hi
  · exact (hacc s0).mpr (.inr o.accS)
  · show upd st.g t _ s0 = 0
    rw [upd_other _ _ s0t]; exact o.gS
  · show upd st.bp t _ s0 = none
    rw [upd_other _ _ s0t]; exact o.bpS
  · exact (hacc gl).mpr (.inr o.accG)
  · intro s h
    show upd st.v t _ s ≤ INF
    by_cases e : s = t
    · simp [e]
    · rw [upd_other _ _ e]; exact o.vle s (((hacc s).mp h).resolve_left e)
  · intro s h
    show upd st.g t _ s ≤ upd st.v t _ s
    by_cases e : s = t
    · simp [e]
    · rw [upd_other _ _ e, upd_other _ _ e]; exact o.gv s (((hacc s).mp h).resolve_left e)
  · intro s k h
    have e := k0 s k h
    have := o.key0 s k h
    simp only [key, upd_other _ _ e, Nat.zero_le, if_true] at this ⊢
    exact this
  · intro i hi s k h
    have e := ki i hi s k h
    have := o.keyi i hi s k h
    simp only [upd_other _ _ e] at this ⊢
    exact this
  · intro s p h hb
    by_cases e : s = t
    · simp only [e, upd_same] at hb; cases hb
    simp only [upd_other _ _ e] at hb ⊢
    obtain ⟨h1, h2, c, h3, h4⟩ := o.par s p (((hacc s).mp h).resolve_left e) hb
    have ep := ne p h1
    refine ⟨(hacc p).mpr (.inr h1), ?_, c, h3, ?_⟩
    · rw [upd_other _ _ ep]; exact h2
    · rw [upd_other _ _ ep]; exact h4
  · intro s h hg
    by_cases e : s = t
    · simp [e]
    simp only [upd_other _ _ e] at hg ⊢
    exact o.infBp s (((hacc s).mp h).resolve_left e) hg
  · intro s h hg
    by_cases e : s = t
    · simp [e] at hg
    simp only [upd_other _ _ e] at hg
    have hs := ((hacc s).mp h).resolve_left e
    refine chain_congr st.acc (fun s hs => upd_other _ _ (ne s hs)) (fun s p hs hp => (o.par s p hs hp).1) hs (o.chain s hs hg)
  · intro s h hc i hi
    by_cases e : s = t
    · rw [e]; exact kt i hi
    simp only [upd_other _ _ e] at hc
    exact o.anc s (((hacc s).mp h).resolve_left e) hc i hi
  · intro s h hc i h1 hi
    by_cases e : s = t
    · rw [e]; exact kt i hi
    simp only [upd_other _ _ e] at hc
    exact o.add s (((hacc s).mp h).resolve_left e) hc i h1 hi
  · intro s h hg
    by_cases e : s = t
    · simp [e] at hg
    simp only [upd_other _ _ e] at hg ⊢
    exact o.front s (((hacc s).mp h).resolve_left e) hg
  · intro s h hv u c hu
    by_cases e : s = t
    · simp [e] at hv
    simp only [upd_other _ _ e] at hv ⊢
    rcases o.rel s (((hacc s).mp h).resolve_left e) hv u c hu with r | ⟨r1, r2⟩
    · exact .inl r
    · exact .inr ⟨(hacc u).mpr (.inr r1), by rw [upd_other _ _ (ne u r1)]; exact r2⟩
  · exact o.nd
  · intro s
    constructor
    · intro h
      have h' := (o.trA s).mp h
      exact ⟨(hacc s).mpr (.inr h'.1), by simp only [upd_other _ _ (ne s h'.1)]; exact h'.2⟩
    · rintro ⟨h1, h2⟩
      by_cases e : s = t
      · simp [e] at h2
      simp only [upd_other _ _ e] at h2
      exact (o.trA s).mpr ⟨((hacc s).mp h1).resolve_left e, h2⟩
  · intro s
    constructor
    · intro h
      have h' := (o.trB s).mp h
      exact ⟨(hacc s).mpr (.inr h'.1), by simp only [upd_other _ _ (ne s h'.1)]; exact h'.2⟩
    · rintro ⟨h1, h2⟩
      by_cases e : s = t
      · simp [e] at h2
      simp only [upd_other _ _ e] at h2
      exact (o.trB s).mpr ⟨((hacc s).mp h1).resolve_left e, h2⟩
  · intro s h
    by_cases e : s = t
    · subst e
      simp [ntr]
    simp only [upd_other _ _ e]
    exact o.vtr s (((hacc s).mp h).resolve_left e)
  · exact o.goalNot
  · exact o.order
  · exact o.len
  · intro N M hg s h hc n w
    by_cases e : s = t
    · simp [e] at hc
    simp only [upd_other _ _ e] at hc ⊢
    exact o.bound N M hg s (((hacc s).mp h).resolve_left e) hc n w

/-! ## OPEN list operations -/

/-- only the OPEN lists changed, and only in the entries of state `s` -/
structure OpnOnly (a b : MHA) (s : Nat) : Prop where
  eq : b = { a with opn := b.opn }
  heap : ∀ i, i ≤ a.hcount → BP (b.opn i) ∧ Ordered (b.opn i)
  other : ∀ i, i ≤ a.hcount → ∀ t, t ≠ s → keyOf (b.opn i) t = keyOf (a.opn i) t

theorem OpnOnly.frame {a b : MHA} {s : Nat} (o : OpnOnly a b s) : Frame a b := by
  rw [o.eq]; exact ⟨rfl, rfl, rfl, rfl, rfl, rfl, rfl, rfl, rfl, rfl, rfl⟩

theorem OpnOnly.trans {a b c : MHA} {s : Nat} (x : OpnOnly a b s) (y : OpnOnly b c s) : OpnOnly a c s := by
  have hh : b.hcount = a.hcount := by rw [x.eq]
  refine ⟨?_, ?_, ?_⟩
  · have e1 := x.eq
    have e2 := y.eq
    rw [e1] at e2
    rw [e2]
  · intro i hi; exact y.heap i (by rw [hh]; exact hi)
  · intro i hi t ht; rw [y.other i (by rw [hh]; exact hi) t ht, x.other i hi t ht]

theorem insertOrUpdate_spec {st : MHA} (hh : ∀ i, i ≤ st.hcount → BP (st.opn i) ∧ Ordered (st.opn i)) {s i f : Nat}
    (hi : i ≤ st.hcount) :
    OkOr (st.insertOrUpdate s i f) fun st' => OpnOnly st st' s ∧ keyOf (st'.opn i) s = some ⟨(f : Int), 0⟩ ∧
      ∀ j, j ≠ i → st'.opn j = st.opn j := by
  unfold insertOrUpdate
  have key : ∀ h' : Heap CKey, BP h' → Ordered h' → keyOf h' = upd (keyOf (st.opn i)) s (some ⟨(f : Int), 0⟩) →
      OpnOnly st { st with opn := upd st.opn i h' } s ∧
      keyOf (({ st with opn := upd st.opn i h' } : MHA).opn i) s = some ⟨(f : Int), 0⟩ ∧
      ∀ j, j ≠ i → ({ st with opn := upd st.opn i h' } : MHA).opn j = st.opn j := by
    intro h' b' o' k'
    refine ⟨⟨rfl, ?_, ?_⟩, ?_, ?_⟩
    · intro j hj
      show BP (upd st.opn i h' j) ∧ Ordered (upd st.opn i h' j)
      by_cases e : j = i
      · rw [e, upd_same]; exact ⟨b', o'⟩
      · rw [upd_other _ _ e]; exact hh j hj
    · intro j hj t ht
      show keyOf (upd st.opn i h' j) t = _
      by_cases e : j = i
      · rw [e, upd_same, k', upd_other _ _ ht]
      · rw [upd_other _ _ e]
    · show keyOf (upd st.opn i h' i) s = _
      rw [upd_same, k', upd_same]
    · intro j hj
      exact upd_other _ _ hj
  by_cases c : (st.opn i).idx s ≠ 0
  · rw [if_pos c]
    obtain ⟨h', e⟩ := (update_ok_iff (st.opn i) s ⟨(f : Int), 0⟩).mpr (by rw [ne_eq, keyOf_none]; exact c)
    rw [e]
    obtain ⟨a1, a2, a3, a4, a5, a6⟩ := update_spec (hh i hi).1 (hh i hi).2 e
    exact key h' a1 a4 a2
  · rw [if_neg c]
    cases e : (st.opn i).insert s ⟨(f : Int), 0⟩ with
    | error er =>
      show PErr.heap er = .heap .full
      rcases insert_err e with ⟨h, _⟩ | ⟨_, _, h⟩
      · rw [h]
      · exact absurd (keyOf_none.mpr (by omega)) h
    | ok h' =>
      obtain ⟨a1, a2, a3, a4, a5, a6⟩ := insert_spec (hh i hi).1 e
      exact key h' a1 (a4 (hh i hi).2) a2

theorem insertAdds_spec {s fa : Nat} (is : List Nat) : ∀ {st : MHA},
    (∀ i, i ≤ st.hcount → BP (st.opn i) ∧ Ordered (st.opn i)) → (∀ i ∈ is, 1 ≤ i ∧ i ≤ st.hcount) →
    OkOr (st.insertAdds s fa is) fun st' => OpnOnly st st' s ∧ st'.opn 0 = st.opn 0 ∧
      ∀ i, i ≤ st.hcount → keyOf (st'.opn i) s = keyOf (st.opn i) s ∨
        keyOf (st'.opn i) s = some ⟨(st.key s i : Int), 0⟩ := by
  induction is with
  | nil => intro st hh _; exact ⟨⟨rfl, hh, fun _ _ _ _ => rfl⟩, rfl, fun _ _ => .inl rfl⟩
  | cons i is ih =>
    intro st hh hm
    unfold insertAdds
    obtain ⟨i1, i2⟩ := hm i (by simp)
    split
    · have h1 := insertOrUpdate_spec (f := st.key s i) hh (s := s) i2
      cases e : st.insertOrUpdate s i (st.key s i) with
      | error er => rw [e] at h1; exact h1
      | ok st1 =>
        rw [e] at h1
        obtain ⟨o1, k1, q1⟩ := h1
        have hc : st1.hcount = st.hcount := o1.frame.hcount
        have kk : ∀ j, st1.key s j = st.key s j := by intro j; rw [o1.eq]; rfl
        refine (ih (st := st1) (by rw [hc]; exact o1.heap) (by rw [hc]; exact fun j hj => hm j (by simp [hj]))).imp ?_
        rintro st2 ⟨o2, z2, k2⟩
        refine ⟨o1.trans o2, by rw [z2, q1 0 (by omega)], ?_⟩
        intro j hj
        rw [hc] at k2
        rcases k2 j hj with h | h
        · by_cases ej : j = i
          · right; rw [h, ej, k1]
          · left; rw [h, q1 j ej]
        · right; rw [h, kk]
    · exact ih hh (fun j hj => hm j (by simp [hj]))

theorem reopen_spec {st : MHA} (hh : ∀ i, i ≤ st.hcount → BP (st.opn i) ∧ Ordered (st.opn i)) (t : Nat) :
    OkOr (st.reopen t) fun st' => OpnOnly st st' t ∧
      ((st.cAnc t = true ∧ st'.opn = st.opn) ∨
       (st.cAnc t = false ∧ keyOf (st'.opn 0) t = some ⟨(st.key t 0 : Int), 0⟩ ∧
        ∀ i, 1 ≤ i → i ≤ st.hcount → keyOf (st'.opn i) t = keyOf (st.opn i) t ∨
          st.cAdd t = false ∧ keyOf (st'.opn i) t = some ⟨(st.key t i : Int), 0⟩)) := by
  unfold reopen
  by_cases c : st.cAnc t = false
  · rw [if_pos c]
    have h1 := insertOrUpdate_spec (f := st.key t 0) hh (s := t) (Nat.zero_le _)
    cases e : st.insertOrUpdate t 0 (st.key t 0) with
    | error er => rw [e] at h1; exact h1
    | ok st1 =>
      rw [e] at h1
      obtain ⟨o1, k1, q1⟩ := h1
      have hc : st1.hcount = st.hcount := o1.frame.hcount
      have ca : st1.cAdd = st.cAdd := by rw [o1.eq]
      have kk : ∀ j, st1.key t j = st.key t j := by intro j; rw [o1.eq]; rfl
      show OkOr (if st1.cAdd t = false then _ else _) _
      split
      next c2 =>
        refine (insertAdds_spec (s := t) (fa := st.key t 0) st.adds (st := st1) (by rw [hc]; exact o1.heap) ?_).imp ?_
        · intro i hi
          simp only [adds, List.mem_map, List.mem_range] at hi
          obtain ⟨a, ha, rfl⟩ := hi
          omega
        · rintro st2 ⟨o2, z2, k2⟩
          refine ⟨o1.trans o2, .inr ⟨c, by rw [z2, k1], ?_⟩⟩
          intro i i1 i2
          rcases k2 i (by rw [hc]; exact i2) with h | h
          · left; rw [h, q1 i (by omega)]
          · right; exact ⟨by rw [← ca]; exact c2, by rw [h, kk]⟩
      next c2 =>
        refine ⟨o1, .inr ⟨c, k1, ?_⟩⟩
        intro i i1 i2
        left; rw [q1 i (by omega)]
  · rw [if_neg c]
    exact ⟨⟨rfl, hh, fun _ _ _ _ => rfl⟩, .inl ⟨by simpa using c, rfl⟩⟩

/-! ## relaxing edges -/

theorem chain_g {st : MHA} {s0 gl x : Nat} {es : List (Nat × Nat)} (o : Ok st s0 gl x es) {s : Nat} (h : Chain st.bp s0 s) :
    ∀ {t : Nat} {G : Nat}, st.acc s → st.g s < G → st.g t ≥ G → ∀ p, Chain (upd st.bp t p) s0 s := by
  induction h with
  | root e =>
    intro t G ha hg ht p
    have : s0 ≠ t := by intro e; rw [e] at hg; omega
    exact .root (by rw [upd_other _ _ this]; exact e)
  | step e _ ih =>
    intro t G ha hg ht p
    rename_i s q _
    have : s ≠ t := by intro e; rw [e] at hg; omega
    obtain ⟨h1, _, c, _, h4⟩ := o.par s q ha e
    exact .step (by rw [upd_other _ _ this]; exact e) (ih h1 (by omega) ht p)

theorem improve_ok {st st' : MHA} {s0 gl x t c : Nat} {es : List (Nat × Nat)} (o : Ok st s0 gl x ((t, c) :: es))
    (at_ : st.acc t) (ax : st.acc x) (gx : st.g x = st.v x) (vx : st.v x < INF) (edge : (t, c) ∈ st.env.succs gl x)
    (lt : st.g x + c < st.g t) {o' : Nat → Heap CKey}
    (e : st' = { st with g := upd st.g t (st.g x + c), bp := upd st.bp t (some x), opn := o' })
    (hh : ∀ i, i ≤ st.hcount → BP (o' i) ∧ Ordered (o' i))
    (hk : ∀ i, i ≤ st.hcount → ∀ u, u ≠ t → keyOf (o' i) u = keyOf (st.opn i) u)
    (hc : (st.cAnc t = true ∧ o' = st.opn) ∨
       (st.cAnc t = false ∧ keyOf (o' 0) t = some ⟨((st.g x + c + ARA.infl st.D st.eps (st.h 0 t) : Nat) : Int), 0⟩ ∧
        ∀ i, 1 ≤ i → i ≤ st.hcount → keyOf (o' i) t = keyOf (st.opn i) t ∨
          st.cAdd t = false ∧
            keyOf (o' i) t = some ⟨((st.g x + c + ARA.infl st.D st.eps (st.h i t) : Nat) : Int), 0⟩)) :
    Ok st' s0 gl x es ∧ st'.acc x ∧ st'.g x = st'.v x ∧ st'.v x < INF ∧ st'.acc t := by
  subst e
  have xt : x ≠ t := by intro e; rw [e] at lt; omega
  have st0 : s0 ≠ t := by intro e; rw [← e, o.gS] at lt; omega
  have gtI : st.g t ≤ INF := Nat.le_trans (o.gv t at_) (o.vle t at_)
  have ktIn : ∀ i, i ≤ st.hcount → st.cAnc t = true → keyOf (o' i) t = none := by
    intro i hi h
    rcases hc with ⟨h1, h2⟩ | ⟨h1, _⟩
    · rw [h2]; exact o.anc t at_ h i hi
    · rw [h] at h1; cases h1
  refine ⟨?_, ax, by show upd st.g t _ x = _; rw [upd_other _ _ xt]; exact gx, vx, at_⟩
  constructor
  · exact hh
  · intro s h i hi
    have : s ≠ t := fun e => h (e ▸ at_)
    show keyOf (o' i) s = none
    rw [hk i hi s this]; exact o.stale s h i hi
  · exact o.callLe
  · exact o.hval
  · exact o.accS
  · show upd st.g t _ s0 = 0
    rw [upd_other _ _ st0]; exact o.gS
  · show upd st.bp t _ s0 = none
    rw [upd_other _ _ st0]; exact o.bpS
  · exact o.accG
  · exact o.vle
  · intro s h
    show upd st.g t _ s ≤ st.v s
    by_cases e : s = t
    · rw [e, upd_same]; have := o.gv t at_; omega
    · rw [upd_other _ _ e]; exact o.gv s h
  · intro s k h
    by_cases e : s = t
    · subst e
      rcases hc with ⟨h1, h2⟩ | ⟨h1, h2, _⟩
      · change keyOf (o' 0) s = some k at h
        rw [ktIn 0 (Nat.zero_le _) h1] at h; cases h
      · change keyOf (o' 0) s = some k at h
        rw [h2] at h
        cases h
        simp only [key, upd_same]
        exact ⟨trivial, by omega⟩
    · change keyOf (o' 0) s = some k at h
      rw [hk 0 (Nat.zero_le _) s e] at h
      have := o.key0 s k h
      simp only [key, upd_other _ _ e] at this ⊢
      exact this
  · intro i hi s k h
    change keyOf (o' i) s = some k at h
    by_cases e : s = t
    · subst e
      rcases hc with ⟨h1, h2⟩ | ⟨h1, h2, h3⟩
      · rw [ktIn i hi h1] at h; cases h
      · refine ⟨?_, by show keyOf (o' 0) s ≠ none; rw [h2]; simp⟩
        simp only [upd_same]
        rcases Nat.eq_zero_or_pos i with z | z
        · subst z
          rw [h2] at h; cases h; push_cast; omega
        · rcases h3 i z hi with q | ⟨_, q⟩
          · rw [q] at h
            have := (o.keyi i hi s k h).1
            omega
          · rw [q] at h; cases h; push_cast; omega
    · rw [hk i hi s e] at h
      have := o.keyi i hi s k h
      refine ⟨by simp only [upd_other _ _ e]; exact this.1, ?_⟩
      show keyOf (o' 0) s ≠ none
      rw [hk 0 (Nat.zero_le _) s e]; exact this.2
  · intro s p h hb
    by_cases e : s = t
    · subst e
      simp only [upd_same, Option.some.injEq] at hb
      subst hb
      refine ⟨ax, vx, c, edge, ?_⟩
      simp only [upd_same, upd_other _ _ xt]; omega
    · simp only [upd_other _ _ e] at hb
      obtain ⟨h1, h2, d, h3, h4⟩ := o.par s p h hb
      refine ⟨h1, h2, d, h3, ?_⟩
      show upd st.g t _ p + d ≤ upd st.g t _ s
      rw [upd_other _ _ e]
      by_cases ep : p = t
      · rw [ep, upd_same]; rw [ep] at h4; omega
      · rw [upd_other _ _ ep]; exact h4
  · intro s h hg
    by_cases e : s = t
    · simp only [e, upd_same] at hg; omega
    · simp only [upd_other _ _ e] at hg ⊢
      exact o.infBp s h hg
  · intro s h hg
    have ct : Chain (upd st.bp t (some x)) s0 t := by
      refine .step (p := x) (by simp) ?_
      exact chain_g o (o.chain x ax (by omega)) ax (G := st.g t) (by omega) (Nat.le_refl _) _
    by_cases e : s = t
    · rw [e]; exact ct
    · simp only [upd_other _ _ e] at hg
      have h2 := o.chain s h hg
      clear h hg e
      show Chain (upd st.bp t (some x)) s0 s
      induction h2 with
      | root e => exact .root (by rw [upd_other _ _ st0]; exact e)
      | step e _ ih =>
        rename_i s q _
        by_cases es : s = t
        · rw [es]; exact ct
        · exact .step (by rw [upd_other _ _ es]; exact e) ih
  · intro s h hca i hi
    by_cases e : s = t
    · rw [e]; exact ktIn i hi (e ▸ hca)
    · show keyOf (o' i) s = none
      rw [hk i hi s e]; exact o.anc s h hca i hi
  · intro s h hca i i1 hi
    by_cases e : s = t
    · subst e
      show keyOf (o' i) s = none
      rcases hc with ⟨h1, h2⟩ | ⟨h1, h2, h3⟩
      · exact ktIn i hi h1
      · rcases h3 i i1 hi with q | ⟨q, _⟩
        · rw [q]; exact o.add s h hca i i1 hi
        · change st.cAdd s = true at hca
          rw [hca] at q; cases q
    · show keyOf (o' i) s = none
      rw [hk i hi s e]; exact o.add s h hca i i1 hi
  · intro s h hg
    by_cases e : s = t
    · subst e
      rcases hc with ⟨h1, h2⟩ | ⟨h1, h2, _⟩
      · exact .inr h1
      · left; show keyOf (o' 0) s ≠ none; rw [h2]; simp
    · simp only [upd_other _ _ e] at hg
      rcases o.front s h hg with q | q
      · left; show keyOf (o' 0) s ≠ none; rw [hk 0 (Nat.zero_le _) s e]; exact q
      · exact .inr q
  · intro s h hv u d hu
    have mono : ∀ z, upd st.g t (st.g x + c) z ≤ st.g z := by
      intro z
      by_cases e : z = t
      · rw [e, upd_same]; omega
      · rw [upd_other _ _ e]
    rcases o.rel s h hv u d hu with ⟨r1, r2⟩ | ⟨r1, r2⟩
    · rcases List.mem_cons.mp r2 with r | r
      · cases r
        right
        refine ⟨at_, ?_⟩
        show upd st.g t _ t ≤ st.v s + c
        rw [upd_same, r1]; omega
      · exact .inl ⟨r1, r⟩
    · right
      exact ⟨r1, Nat.le_trans (mono u) r2⟩
  · exact o.nd
  · exact o.trA
  · exact o.trB
  · exact o.vtr
  · exact o.goalNot
  · exact o.order
  · exact o.len
  · exact o.bound

theorem relax_ok {st : MHA} {s0 gl x t c : Nat} {es : List (Nat × Nat)} (o : Ok st s0 gl x ((t, c) :: es))
    (ax : st.acc x) (gx : st.g x = st.v x) (vx : st.v x < INF) (edge : (t, c) ∈ st.env.succs gl x) :
    OkOr (st.relax gl x t c) fun st' => (Ok st' s0 gl x es ∧ st'.acc x ∧ st'.g x = st'.v x ∧ st'.v x < INF) ∧ Frame st st' ∧
      st'.trace = st.trace := by
  unfold relax
  obtain ⟨o1, at1, h1⟩ := reinit_ok o t
  have fr := reinit_frame st gl t
  have tr1 : (st.reinitState gl t).trace = st.trace := by
    rw [reinit_eq o.stale]; split <;> rfl
  obtain ⟨ax1, gx1, vx1⟩ := h1 x ax
  generalize st.reinitState gl t = st1 at *
  have e1 : st1.env.succs gl x = st.env.succs gl x := by rw [fr.env]
  show OkOr (if st1.g x + c < st1.g t then _ else _) _
  split
  next lt =>
    refine (reopen_spec (st := { st1 with g := upd st1.g t (st1.g x + c), bp := upd st1.bp t (some x) }) o1.heap t).imp ?_
    rintro st' ⟨oo, hc⟩
    have := improve_ok o1 at1 ax1 (by rw [gx1, vx1, gx]) (by rw [vx1]; exact vx) (by rw [e1]; exact edge) lt oo.eq
      oo.heap oo.other (by
        rcases hc with hc | hc
        · exact .inl hc
        · right
          simpa [key] using hc)
    refine ⟨⟨this.1, this.2.1, this.2.2.1, this.2.2.2.1⟩, fr.trans ?_, ?_⟩
    · have h2 := oo.frame
      exact ⟨h2.env, h2.hs, h2.hcount, h2.D, h2.call, h2.start, h2.goal, h2.ime, h2.me, h2.eps, h2.epsMha⟩
    · rw [oo.eq]; exact tr1
  next ge =>
    refine ⟨⟨?_, ax1, by rw [gx1, vx1, gx], by rw [vx1]; exact vx⟩, fr, tr1⟩
    refine { o1 with rel := ?_ }
    intro s h hv u d hu
    rcases o1.rel s h hv u d hu with ⟨r1, r2⟩ | r
    · rcases List.mem_cons.mp r2 with r | r
      · cases r
        right
        refine ⟨at1, ?_⟩
        have hx : st1.v s = st1.g x := by rw [r1, vx1, gx1, gx]
        omega
      · exact .inl ⟨r1, r⟩
    · exact .inr r

theorem relaxAll_ok {s0 gl x : Nat} (es : List (Nat × Nat)) : ∀ {st : MHA}, Ok st s0 gl x es → st.acc x → st.g x = st.v x →
    st.v x < INF → (∀ e ∈ es, e ∈ st.env.succs gl x) →
    OkOr (st.relaxAll gl x es) fun st' => Ok st' s0 gl x [] ∧ Frame st st' ∧ st'.trace = st.trace := by
  induction es with
  | nil => intro st o _ _ _ _; exact ⟨o, Frame.refl st, rfl⟩
  | cons e es ih =>
    intro st o ax gx vx hm
    obtain ⟨t, c⟩ := e
    unfold relaxAll
    have h := relax_ok o ax gx vx (hm _ (by simp))
    cases e : st.relax gl x t c with
    | error er => rw [e] at h; exact h
    | ok st1 =>
      rw [e] at h
      obtain ⟨⟨o1, a1, g1, v1⟩, f1, t1⟩ := h
      refine (ih o1 a1 g1 v1 (fun e he => by rw [f1.env]; exact hm e (by simp [he]))).imp ?_
      rintro st2 ⟨o2, f2, t2⟩
      exact ⟨o2, f1.trans f2, by rw [t2, t1]⟩

theorem Ok.any {st : MHA} {s0 gl x : Nat} (o : Ok st s0 gl x []) (y : Nat) : Ok st s0 gl y [] := by
  refine { o with rel := ?_ }
  intro s h hv u d hu
  rcases o.rel s h hv u d hu with ⟨_, r⟩ | r
  · cases r
  · exact .inr r

/-! ## expansion -/

theorem removeFrom_spec {s : Nat} (is : List Nat) : ∀ {st : MHA},
    (∀ i, i ≤ st.hcount → BP (st.opn i) ∧ Ordered (st.opn i)) → (∀ i ∈ is, i ≤ st.hcount) →
    ∃ st', st.removeFrom s is = .ok st' ∧ OpnOnly st st' s ∧ (∀ i ∈ is, keyOf (st'.opn i) s = none) ∧
      (∀ i, i ≤ st.hcount → keyOf (st.opn i) s = none → keyOf (st'.opn i) s = none) := by
  induction is with
  | nil => intro st hh _; exact ⟨st, rfl, ⟨rfl, hh, fun _ _ _ _ => rfl⟩, by simp, fun _ _ h => h⟩
  | cons i is ih =>
    intro st hh hm
    have hi := hm i (by simp)
    unfold removeFrom
    by_cases c : (st.opn i).inHeap s = true
    · rw [if_pos c]
      have c' : keyOf (st.opn i) s ≠ none := by
        rw [ne_eq, keyOf_none]; simpa [inHeap] using c
      obtain ⟨h', e⟩ := (delete_ok_iff (st.opn i) s).mpr c'
      rw [e]
      obtain ⟨a1, a2, a3, a4, a5, a6⟩ := delete_spec (hh i hi).1 (hh i hi).2 e
      have o1 : OpnOnly st { st with opn := upd st.opn i h' } s := by
        refine ⟨rfl, ?_, ?_⟩
        · intro j hj
          show BP (upd st.opn i h' j) ∧ Ordered (upd st.opn i h' j)
          by_cases e : j = i
          · rw [e, upd_same]; exact ⟨a1, a4⟩
          · rw [upd_other _ _ e]; exact hh j hj
        · intro j hj t ht
          show keyOf (upd st.opn i h' j) t = _
          by_cases e : j = i
          · rw [e, upd_same, a2, upd_other _ _ ht]
          · rw [upd_other _ _ e]
      obtain ⟨st', e', o', k', m'⟩ := ih (st := { st with opn := upd st.opn i h' }) o1.heap
        (fun j hj => hm j (by simp [hj]))
      have kn : ∀ j, j ≤ st.hcount → (j = i ∨ keyOf (st.opn j) s = none) → keyOf (upd st.opn i h' j) s = none := by
        intro j hj h
        by_cases e : j = i
        · rw [e, upd_same, a2, upd_same]
        · rw [upd_other _ _ e]; exact h.resolve_left e
      refine ⟨st', e', o1.trans o', ?_, ?_⟩
      · intro j hj
        rcases List.mem_cons.mp hj with q | q
        · rw [q]; exact m' i hi (kn i hi (.inl rfl))
        · exact k' j q
      · intro j hj h; exact m' j hj (kn j hj (.inr h))
    · rw [if_neg c]
      obtain ⟨st', e', o', k', m'⟩ := ih (st := st) hh (fun j hj => hm j (by simp [hj]))
      refine ⟨st', e', o', ?_, m'⟩
      intro j hj
      rcases List.mem_cons.mp hj with q | q
      · rw [q]
        refine m' i hi (keyOf_none.mpr ?_)
        simpa [inHeap] using c
      · exact k' j q

/-- along every walk from the start there is a well-valued state in the anchor's OPEN list, or its end is well-valued -/
theorem walk_front {st : MHA} {s0 gl x N M : Nat} (o : Ok st s0 gl x []) (hG : Good st gl N M) {s n : Nat}
    (w : Walk (st.env.succs gl) s0 s n) :
    (st.acc s ∧ M * st.v s ≤ N * n) ∨ M * INF ≤ N * n ∨
    ∃ u a r, st.acc u ∧ keyOf (st.opn 0) u ≠ none ∧ M * st.g u ≤ N * a ∧ Walk (st.env.succs gl) u s r ∧ a + r = n := by
  induction w with
  | nil =>
    by_cases h : st.g s0 < st.v s0
    · rcases o.front s0 o.accS h with q | q
      · exact .inr (.inr ⟨s0, 0, 0, o.accS, q, by rw [o.gS]; simp, .nil, rfl⟩)
      · exact .inl ⟨o.accS, o.bound N M hG s0 o.accS q 0 .nil⟩
    · left
      have := o.gv s0 o.accS
      have z : st.v s0 = 0 := by rw [o.gS] at h; omega
      exact ⟨o.accS, by rw [z]; simp⟩
  | snoc w e ih =>
    rename_i b t n c
    rcases ih with ⟨ab, hb⟩ | h | ⟨u, a, r, h1, h2, h3, h4, h5⟩
    · by_cases hv : st.v b < INF
      · rcases o.rel b ab hv t c e with ⟨_, r⟩ | ⟨at_, r⟩
        · cases r
        have hMc : M * c ≤ N * c := Nat.mul_le_mul_right _ hG.1
        have gt : M * st.g t ≤ N * (n + c) := by
          have h1 : M * st.g t ≤ M * (st.v b + c) := Nat.mul_le_mul_left _ r
          rw [Nat.mul_add] at h1
          rw [Nat.mul_add]; omega
        by_cases h : st.g t < st.v t
        · rcases o.front t at_ h with q | q
          · exact .inr (.inr ⟨t, n + c, 0, at_, q, gt, .nil, rfl⟩)
          · exact .inl ⟨at_, o.bound N M hG t at_ q _ (.snoc w e)⟩
        · have := o.gv t at_
          have z : st.v t = st.g t := by omega
          exact .inl ⟨at_, by rw [z]; exact gt⟩
      · right; left
        have z : st.v b = INF := by have := o.vle b ab; omega
        rw [z] at hb
        rw [Nat.mul_add]; omega
    · right; left
      rw [Nat.mul_add]; omega
    · exact .inr (.inr ⟨u, a, r + c, h1, h2, h3, .snoc h4 e, by omega⟩)

/-- the inflated heuristic along a walk -/
theorem upTo_walk {st : MHA} {gl N M : Nat} (hG : Good st gl N M) {u s r : Nat} (w : Walk (st.env.succs gl) u s r) :
    M * ARA.infl st.D st.eps (st.hs 0 gl u) ≤ M * ARA.infl st.D st.eps (st.hs 0 gl s) + N * r := by
  induction w with
  | nil => omega
  | snoc w e ih =>
    rename_i b t n c
    have := hG.2.2 b t c e
    rw [Nat.mul_add]
    simp only [ARA.infl] at *
    omega

theorem min_of_key {st : MHA} {s0 gl x : Nat} {es : List (Nat × Nat)} (o : Ok st s0 gl x es) {i : Nat} (hi : i ≤ st.hcount)
    {u : Nat} {k : CKey} (h : keyOf (st.opn i) u = some k) : (st.opn i).size ≠ 0 ∧ st.minf i ≤ k.k0 := by
  have nz : (st.opn i).size ≠ 0 := by
    intro z
    obtain ⟨j, j1, j2, _⟩ := slot_of_keyOf (o.heap i hi).1 h
    omega
  refine ⟨nz, ?_⟩
  have := min_le (o.heap i hi).1 (o.heap i hi).2 h
  unfold minf getMinKey
  rw [if_neg nz]
  rw [CKey.le_def] at this
  simp only [kat] at this
  omega

/-- the anchor's minimal key is a lower bound -/
theorem minf0_bound {st : MHA} {s0 gl x N M : Nat} (o : Ok st s0 gl x []) (hG : Good st gl N M) {s n : Nat}
    (w : Walk (st.env.succs gl) s0 s n) :
    (st.acc s ∧ M * st.v s ≤ N * n) ∨ M * INF ≤ N * n ∨
    ((st.opn 0).size ≠ 0 ∧ (M : Int) * st.minf 0 ≤ N * n + M * ARA.infl st.D st.eps (st.hs 0 gl s)) := by
  rcases walk_front o hG w with h | h | ⟨u, a, r, h1, h2, h3, h4, h5⟩
  · exact .inl h
  · exact .inr (.inl h)
  · right; right
    cases hk : keyOf (st.opn 0) u with
    | none => exact absurd hk h2
    | some k =>
      obtain ⟨nz, hm⟩ := min_of_key o (Nat.zero_le _) hk
      refine ⟨nz, ?_⟩
      have ke := (o.key0 u k hk).1
      have hu := upTo_walk hG h4
      have h0 : st.h 0 u = st.hs 0 gl u := o.hval u h1 0 (Nat.zero_le _)
      rw [ke] at hm
      simp only [key, h0] at hm
      have key : M * (st.g u + ARA.infl st.D st.eps (st.hs 0 gl u)) ≤ N * n + M * ARA.infl st.D st.eps (st.hs 0 gl s) := by
        rw [Nat.mul_add, ← h5, Nat.mul_add]; omega
      have : (M : Int) * st.minf 0 ≤ M * ((st.g u + ARA.infl st.D st.eps (st.hs 0 gl u) : Nat) : Int) :=
        mul_le_mul_of_nonneg_left hm (by omega)
      calc (M : Int) * st.minf 0 ≤ ((M * (st.g u + ARA.infl st.D st.eps (st.hs 0 gl u)) : Nat) : Int) := by
            push_cast at this ⊢; exact this
        _ ≤ ((N * n + M * ARA.infl st.D st.eps (st.hs 0 gl s) : Nat) : Int) := by exact_mod_cast key
        _ = _ := by push_cast; ring

theorem top_key {st : MHA} {s0 gl x : Nat} {es : List (Nat × Nat)} (o : Ok st s0 gl x es) {i : Nat} (hi : i ≤ st.hcount)
    (nz : (st.opn i).size ≠ 0) : ∃ k, keyOf (st.opn i) (st.top i) = some k ∧ k.k0 = st.minf i := by
  refine ⟨(st.opn i).kat 1, keyOf_slot (o.heap i hi).1 (Nat.le_refl 1) (by omega), ?_⟩
  unfold minf getMinKey
  rw [if_neg nz]
  rfl

theorem expand_ok {st : MHA} {s0 gl x i : Nat} (o : Ok st s0 gl x []) (hi : i ≤ st.hcount) (nz : (st.opn i).size ≠ 0)
    (ng : ¬ (st.g gl : Int) ≤ st.minf i) :
    OkOr (st.expand gl (st.top i) i) fun st' => Ok st' s0 gl 0 [] ∧ Frame st st' ∧
      st'.trace = (st.top i, decide (i = 0)) :: st.trace := by
  obtain ⟨k, hk, hkm⟩ := top_key o hi nz
  generalize hs : st.top i = s at *
  have ⟨gk, k0n⟩ := o.keyi i hi s k hk
  have as : st.acc s := by
    by_contra h
    rw [o.stale s h i hi] at hk; cases hk
  obtain ⟨k0, hk0⟩ : ∃ k0, keyOf (st.opn 0) s = some k0 := by
    cases h : keyOf (st.opn 0) s with
    | none => exact absurd h k0n
    | some k0 => exact ⟨k0, rfl⟩
  have gs : st.g s < INF := (o.key0 s k0 hk0).2
  have sg : s ≠ gl := by
    intro e; rw [e, hkm] at gk; exact ng gk
  have nAnc : st.cAnc s = false := by
    by_contra h
    rw [o.anc s as (by simpa using h) i hi] at hk; cases hk
  have nAdd : i ≠ 0 → st.cAdd s = false := by
    intro h1
    by_contra h
    rw [o.add s as (by simpa using h) i (by omega) hi] at hk; cases hk
  -- every walk to s is within the bound if the anchor expands it
  have bnd : ∀ N M, i = 0 → Good st gl N M → ∀ n, Walk (st.env.succs gl) s0 s n → M * st.g s ≤ N * n := by
    intro N M i0 hG n w
    subst i0
    rcases minf0_bound o hG w with ⟨_, h⟩ | h | ⟨_, h⟩
    · exact Nat.le_trans (Nat.mul_le_mul_left _ (o.gv s as)) h
    · exact Nat.le_trans (Nat.mul_le_mul_left _ (Nat.le_of_lt gs)) h
    · have ke := (o.key0 s k hk).1
      have h0 : st.h 0 s = st.hs 0 gl s := o.hval s as 0 (Nat.zero_le _)
      rw [← hkm, ke] at h
      simp only [key, h0] at h
      have h' : M * (st.g s + ARA.infl st.D st.eps (st.hs 0 gl s)) ≤ N * n + M * ARA.infl st.D st.eps (st.hs 0 gl s) := by
        exact_mod_cast h
      rw [Nat.mul_add] at h'
      omega
  unfold expand
  have hrm := removeFrom_spec (s := s) (List.range (st.hcount + 1)) (st := { st with
    cAnc := if i = 0 then upd st.cAnc s true else st.cAnc
    cAdd := if i = 0 then st.cAdd else upd st.cAdd s true
    numExp := st.numExp + 1
    v := upd st.v s (st.g s)
    trace := (s, decide (i = 0)) :: st.trace }) o.heap (fun j hj => by
      have := List.mem_range.mp hj
      show j ≤ st.hcount
      omega)
  obtain ⟨st2, e2, o2, k2, _⟩ := hrm
  simp only [e2]
  have kn : ∀ j, j ≤ st.hcount → keyOf (st2.opn j) s = none := fun j hj => k2 j (List.mem_range.mpr (by omega))
  have ko : ∀ j, j ≤ st.hcount → ∀ t, t ≠ s → keyOf (st2.opn j) t = keyOf (st.opn j) t := o2.other
  have keyne : ∀ j, j ≤ st.hcount → ∀ t q, keyOf (st2.opn j) t = some q → t ≠ s := by
    intro j hj t q h e; rw [e, kn j hj] at h; cases h
  have fr : Frame st st2 := by
    have h := o2.frame
    exact ⟨h.env, h.hs, h.hcount, h.D, h.call, h.start, h.goal, h.ime, h.me, h.eps, h.epsMha⟩
  have hheap := o2.heap
  have heq := o2.eq
  -- the invariant with all edges of s pending
  have ok2 : Ok st2 s0 gl s (st2.env.succs gl s) := by
    rw [heq]
    generalize st2.opn = q at *
    constructor
    · exact hheap
    · intro t h j hj
      by_cases e : t = s
      · rw [e]; exact kn j hj
      · show keyOf (q j) t = none
        rw [ko j hj t e]; exact o.stale t h j hj
    · exact o.callLe
    · exact o.hval
    · exact o.accS
    · exact o.gS
    · exact o.bpS
    · exact o.accG
    · intro t h
      show upd st.v s _ t ≤ INF
      by_cases e : t = s
      · rw [e, upd_same]; omega
      · rw [upd_other _ _ e]; exact o.vle t h
    · intro t h
      show st.g t ≤ upd st.v s _ t
      by_cases e : t = s
      · rw [e, upd_same]
      · rw [upd_other _ _ e]; exact o.gv t h
    · intro t kk h
      have e := keyne 0 (Nat.zero_le _) t kk h
      exact o.key0 t kk (by rw [← ko 0 (Nat.zero_le _) t e]; exact h)
    · intro j hj t kk h
      have e := keyne j hj t kk h
      have := o.keyi j hj t kk (by rw [← ko j hj t e]; exact h)
      refine ⟨this.1, ?_⟩
      show keyOf (q 0) t ≠ none
      rw [ko 0 (Nat.zero_le _) t e]; exact this.2
    · intro t p h hb
      obtain ⟨h1, h2, h3⟩ := o.par t p h hb
      refine ⟨h1, ?_, h3⟩
      show upd st.v s _ p < INF
      by_cases e : p = s
      · rw [e, upd_same]; exact gs
      · rw [upd_other _ _ e]; exact h2
    · exact o.infBp
    · exact o.chain
    · intro t h hc j hj
      by_cases e : t = s
      · rw [e]; exact kn j hj
      · show keyOf (q j) t = none
        rw [ko j hj t e]
        refine o.anc t h ?_ j hj
        simp only at hc
        split at hc
        · rwa [upd_other _ _ e] at hc
        · exact hc
    · intro t h hc j j1 hj
      by_cases e : t = s
      · rw [e]; exact kn j hj
      · show keyOf (q j) t = none
        rw [ko j hj t e]
        refine o.add t h ?_ j j1 hj
        simp only at hc
        split at hc
        · exact hc
        · rwa [upd_other _ _ e] at hc
    · intro t h hg
      by_cases e : t = s
      · simp [e] at hg
      simp only [upd_other _ _ e] at hg
      rcases o.front t h hg with w | w
      · left; show keyOf (q 0) t ≠ none; rw [ko 0 (Nat.zero_le _) t e]; exact w
      · right
        show (if i = 0 then upd st.cAnc s true else st.cAnc) t = true
        split
        · rw [upd_other _ _ e]; exact w
        · exact w
    · intro t h hv u d hu
      by_cases e : t = s
      · left; subst e; exact ⟨rfl, hu⟩
      simp only [upd_other _ _ e] at hv ⊢
      rcases o.rel t h hv u d hu with ⟨_, r⟩ | r
      · cases r
      · exact .inr r
    · show ((s, decide (i = 0)) :: st.trace).Nodup
      refine List.nodup_cons.mpr ⟨?_, o.nd⟩
      intro h
      by_cases i0 : i = 0
      · simp only [i0, decide_true] at h
        rw [((o.trA s).mp h).2] at nAnc; cases nAnc
      · simp only [i0, decide_false] at h
        have := nAdd i0
        rw [((o.trB s).mp h).2] at this; cases this
    · intro t
      show (t, true) ∈ (s, decide (i = 0)) :: st.trace ↔ st.acc t ∧ (if i = 0 then upd st.cAnc s true else st.cAnc) t = true
      by_cases i0 : i = 0
      · simp only [i0, decide_true, if_true]
        by_cases e : t = s
        · simp [e, as]
        · simp [e, o.trA t, upd_other _ _ e]
      · simp [i0, o.trA t]
    · intro t
      show (t, false) ∈ (s, decide (i = 0)) :: st.trace ↔ st.acc t ∧ (if i = 0 then st.cAdd else upd st.cAdd s true) t = true
      by_cases i0 : i = 0
      · simp [i0, o.trB t]
      · simp only [i0, decide_false, if_false]
        by_cases e : t = s
        · simp [e, as]
        · simp [e, o.trB t, upd_other _ _ e]
    · intro t h
      show upd st.v s _ t < INF ↔ ∃ b, (t, b) ∈ (s, decide (i = 0)) :: st.trace
      by_cases e : t = s
      · subst e
        simp only [upd_same, gs, true_iff]
        exact ⟨decide (i = 0), by simp⟩
      · rw [upd_other _ _ e, o.vtr t h]
        constructor
        · rintro ⟨b, hb⟩; exact ⟨b, by simp [hb]⟩
        · rintro ⟨b, hb⟩
          rcases List.mem_cons.mp hb with r | r
          · cases r; exact absurd rfl e
          · exact ⟨b, r⟩
    · intro b h
      rcases List.mem_cons.mp h with r | r
      · cases r; exact sg rfl
      · exact o.goalNot b r
    · show ((s, decide (i = 0)) :: st.trace).Pairwise _
      refine List.pairwise_cons.mpr ⟨?_, o.order⟩
      rintro ⟨t, b⟩ hb he
      simp only at he ⊢
      subst he
      cases b
      · rfl
      · have := ((o.trA s).mp hb).2
        rw [nAnc] at this; cases this
    · show st.numExp + 1 = _
      rw [o.len]; rfl
    · intro N M hG t h hc n w
      have hG' : Good st gl N M := hG
      by_cases e : t = s
      · subst e
        show M * upd st.v t (st.g t) t ≤ N * n
        rw [upd_same]
        by_cases i0 : i = 0
        · exact bnd N M i0 hG' n w
        · simp only [i0, if_false] at hc
          rw [nAnc] at hc; cases hc
      · show M * upd st.v s _ t ≤ N * n
        rw [upd_other _ _ e]
        refine o.bound N M hG' t h ?_ n w
        simp only at hc
        split at hc
        · rwa [upd_other _ _ e] at hc
        · exact hc
  have g2 : st2.g s = st2.v s := by rw [heq]; simp
  have v2 : st2.v s < INF := by rw [heq]; simpa using gs
  have a2 : st2.acc s := by rw [heq]; exact as
  refine (relaxAll_ok (st2.env.succs gl s) ok2 a2 g2 v2 (fun _ h => h)).imp ?_
  rintro st3 ⟨o3, f3, t3⟩
  refine ⟨o3.any 0, fr.trans f3, ?_⟩
  rw [t3, heq]

end Sbpl.MHA
