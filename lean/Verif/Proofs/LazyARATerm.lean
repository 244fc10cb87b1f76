import Verif.Proofs.LazyARAHist
import Verif.Proofs.LazyQueuePerm
/-! Lazy ARA*: termination of ImprovePath and Search. -/

namespace Sbpl.LazyARA
open LazySpec Heap

variable {wf : (LazyElem → Nat) → List LazyElem → Prop}

theorem sum_at {U : List Nat} {s a b : Nat} {f g : Nat → Nat} (nd : U.Nodup) (hs : s ∈ U) (ho : ∀ u, u ≠ s → f u ≤ g u) (h : f s + a ≤ g s + b) :
    (U.map f).sum + a ≤ (U.map g).sum + b := by
  induction U with
  | nil => cases hs
  | cons x U ih =>
    rw [List.nodup_cons] at nd
    simp only [List.map_cons, List.sum_cons]
    by_cases e : x = s
    · subst e
      have : (U.map f).sum ≤ (U.map g).sum := by
        clear ih hs
        obtain ⟨n1, nd⟩ := nd
        clear nd
        induction U with
        | nil => exact Nat.le_refl _
        | cons y U ih =>
          simp only [List.map_cons, List.sum_cons, List.mem_cons, not_or] at *
          have := ih n1.2
          have := ho y (Ne.symm n1.1)
          omega
      omega
    · have := ih nd.2 ((List.mem_cons.mp hs).resolve_left (Ne.symm e))
      have := ho x e
      omega

theorem sum_le {U : List Nat} {f g : Nat → Nat} (ho : ∀ u, f u ≤ g u) : (U.map f).sum ≤ (U.map g).sum := by
  induction U with
  | nil => exact Nat.le_refl _
  | cons x U ih =>
    simp only [List.map_cons, List.sum_cons]
    have := ho x
    omega

/-- number of unevaluated candidates of a state -/
def wt (st : LazyARA) (u : Nat) : Nat := (if st.isTrue u then 0 else 1) + (st.lazy u).countP (fun e => !e.isTrue)

/-- the same, for states of this search only -/
def ww (st : LazyARA) (u : Nat) : Nat := if st.rn u = st.num then st.wt u else 0

def W (U : List Nat) (st : LazyARA) : Nat := (U.map st.ww).sum

/-- what may still be expanded -/
def cw (st : LazyARA) (u : Nat) : Nat := if st.rn u = st.num ∧ st.iterC u = st.iter then 0 else 1 + (st.nbr u).length
def CW (U : List Nat) (st : LazyARA) : Nat := (U.map st.cw).sum
def TW (U : List Nat) (st : LazyARA) : Nat := (U.map fun u => 1 + (st.nbr u).length).sum

theorem CW_le (U : List Nat) (st : LazyARA) : CW U st ≤ TW U st := by
  refine sum_le ?_
  intro u; unfold cw; split <;> omega

/-- only state `s` changes, by at most the given amounts -/
structure Chg (a b : LazyARA) (s : Nat) : Prop where
  rn : b.rn = a.rn
  num : b.num = a.num
  oth : ∀ u, u ≠ s → b.wt u = a.wt u

theorem put_same {st st' : LazyARA} {s : Nat} (h : st.putInHeap s = .ok st') : SameS st st' := by
  unfold putInHeap at h
  split at h
  · split at h
    · split at h
      · cases h; exact ⟨_, _, _, rfl⟩
      · cases h
    · split at h
      · cases h; exact ⟨_, _, _, rfl⟩
      · cases h
  · split at h
    · cases h; exact ⟨_, _, _, rfl⟩
    · cases h; exact ⟨_, _, _, rfl⟩

theorem SameS.wt {a b : LazyARA} (x : SameS a b) : b.wt = a.wt ∧ b.rn = a.rn ∧ b.num = a.num := by
  obtain ⟨h, l, f, e⟩ := x
  rw [e]; exact ⟨rfl, rfl, rfl⟩

theorem wt_setS_other {st : LazyARA} {s g' u : Nat} {p' : Option Nat} {t' : Bool} {l' : List LazyElem} (q : u ≠ s) : (st.setS s g' p' t' l').wt u = st.wt u := by
  show (if upd st.isTrue s t' u then 0 else 1) + (upd st.lazy s l' u).countP _ = _
  rw [upd_other _ _ q, upd_other _ _ q]; rfl

theorem wt_setS_self {st : LazyARA} {s g' : Nat} {p' : Option Nat} {t' : Bool} {l' : List LazyElem} :
    (st.setS s g' p' t' l').wt s = (if t' then 0 else 1) + l'.countP (fun e => !e.isTrue) := by
  show (if upd st.isTrue s t' s then 0 else 1) + (upd st.lazy s l' s).countP _ = _
  rw [upd_same, upd_same]

theorem setBest_wt {st st' : LazyARA} {s p c : Nat} {tr : Bool} (h : st.setBest s p c tr = .ok st') :
    Chg st st' s ∧ st'.wt s = if tr then 0 else 1 + (st.lazy s).countP (fun e => !e.isTrue) := by
  unfold setBest at h
  obtain ⟨h1, h2, h3⟩ := (put_same h).wt
  refine ⟨⟨h2, h3, ?_⟩, ?_⟩
  · intro u q
    rw [h1]
    show (if upd st.isTrue s tr u then 0 else 1) + ((if tr then upd st.lazy s [] else st.lazy) u).countP _ = _
    rw [upd_other _ _ q]
    cases tr
    · rfl
    · simp only [if_true]; rw [upd_other _ _ q]; rfl
  · rw [h1]
    show (if upd st.isTrue s tr s then 0 else 1) + ((if tr then upd st.lazy s [] else st.lazy) s).countP _ = _
    rw [upd_same]
    cases tr
    · simp
    · simp [upd_same]

theorem insert_wt {st st' : LazyARA} {s p c : Nat} {tr : Bool} (q : QueuePerm st.Q) (h : st.insertLazy s p c tr = .ok st') :
    Chg st st' s ∧ st'.wt s ≤ st.wt s + (if tr then 0 else 1) := by
  unfold insertLazy at h
  split at h
  · cases h; exact ⟨⟨rfl, rfl, fun _ _ => rfl⟩, by omega⟩
  · split at h
    · split at h
      · cases h; exact ⟨⟨rfl, rfl, fun _ _ => rfl⟩, by omega⟩
      · cases h
        refine ⟨⟨rfl, rfl, ?_⟩, ?_⟩
        · intro u n
          show (if st.isTrue u then 0 else 1) + (upd st.lazy s _ u).countP _ = _
          rw [upd_other _ _ n]; rfl
        · show (if st.isTrue s then 0 else 1) + (upd st.lazy s _ s).countP _ ≤ _
          rw [upd_same, (q.1 _ _ _).countP_eq, List.countP_cons]
          unfold wt
          cases tr <;> simp <;> omega
    · split at h
      next hs =>
        unfold saveBest at h
        split at h
        · cases h
        next st1 e1 =>
          split at e1
          · cases e1
          next p0 _ =>
            cases e1
            obtain ⟨c1, w1⟩ := setBest_wt h
            refine ⟨⟨c1.rn, c1.num, ?_⟩, ?_⟩
            · intro u n
              rw [c1.oth u n]
              show (if st.isTrue u then 0 else 1) + (upd st.lazy s _ u).countP _ = _
              rw [upd_other _ _ n]; rfl
            · rw [w1, hs.1]
              simp only [Bool.false_eq_true, if_false]
              rw [upd_same, (q.1 _ _ _).countP_eq, List.countP_cons]
              unfold wt
              cases st.isTrue s <;> simp <;> omega
      next hs =>
        obtain ⟨c1, w1⟩ := setBest_wt h
        refine ⟨c1, ?_⟩
        rw [w1]; unfold wt
        cases tr
        · simp; omega
        · simp

theorem next_wt {st st' : LazyARA} {s : Nat} (q : QueuePerm st.Q) (qn : ∀ f l, st.Q.pop f l = none → l = []) (hf : st.isTrue s = false)
    (h : st.nextLazy s = .ok st') : Chg st st' s ∧ st'.wt s + 1 ≤ st.wt s ∧ st'.Q = st.Q := by
  have w0 : st.wt s = 1 + (st.lazy s).countP (fun e => !e.isTrue) := by unfold wt; rw [hf]; simp
  unfold nextLazy at h
  split at h
  next e =>
    cases h
    refine ⟨⟨rfl, rfl, ?_⟩, ?_, rfl⟩
    · intro u n
      show (if upd st.isTrue s true u then 0 else 1) + (st.lazy u).countP _ = _
      rw [upd_other _ _ n]; rfl
    · rw [w0]
      show (if upd st.isTrue s true s then 0 else 1) + (st.lazy s).countP _ + 1 ≤ _
      rw [upd_same]; simp; omega
  next e r hp =>
    have same := put_same h
    have QQ : st'.Q = st.Q := by obtain ⟨_, _, _, e⟩ := same; rw [e]
    obtain ⟨h1, h2, h3⟩ := same.wt
    refine ⟨⟨h2, h3, ?_⟩, ?_, QQ⟩
    · intro u n
      rw [h1]
      show (if upd st.isTrue s _ u then 0 else 1) + (upd st.lazy s _ u).countP _ = _
      rw [upd_other _ _ n, upd_other _ _ n]; rfl
    · rw [h1, w0, (q.2 _ _ _ _ hp).countP_eq, List.countP_cons]
      show (if upd st.isTrue s _ s then 0 else 1) + (upd st.lazy s _ s).countP _ + 1 ≤ _
      rw [upd_same, upd_same]
      cases e.isTrue <;> simp <;> omega

theorem evaluate_wt {st st' : LazyARA} {s : Nat} (q : QueuePerm st.Q) (qn : ∀ f l, st.Q.pop f l = none → l = []) (hf : st.isTrue s = false)
    (h : st.evaluate s = .ok st') : Chg st st' s ∧ st'.wt s + 1 ≤ st.wt s := by
  unfold evaluate at h
  split at h
  · cases h
  next p hp =>
    split at h
    · cases h
    next st1 e1 =>
      obtain ⟨c1, w1, q1⟩ := next_wt q qn hf e1
      split at h
      · obtain ⟨c2, w2⟩ := insert_wt (by rw [q1]; exact q) h
        refine ⟨⟨c2.rn.trans c1.rn, c2.num.trans c1.num, fun u n => (c2.oth u n).trans (c1.oth u n)⟩, ?_⟩
        simp only [if_true] at w2
        omega
      · cases h; exact ⟨c1, w1⟩

/-- all states of this search are in the list -/
def AccIn (U : List Nat) (st : LazyARA) : Prop := ∀ u, st.rn u = st.num → u ∈ U

theorem Chg.accIn {U : List Nat} {a b : LazyARA} {s : Nat} (x : Chg a b s) (h : AccIn U a) : AccIn U b := by
  unfold AccIn; rw [x.rn, x.num]; exact h

theorem Chg.W {U : List Nat} {a b : LazyARA} {s k l : Nat} (x : Chg a b s) (nd : U.Nodup) (hs : s ∈ U) (h : b.ww s + k ≤ a.ww s + l) :
    W U b + k ≤ W U a + l := by
  refine sum_at nd hs ?_ h
  intro u n
  unfold ww
  rw [x.rn, x.num, x.oth u n]

theorem Chg.ww {a b : LazyARA} {s : Nat} (x : Chg a b s) (k : Nat) (h : b.wt s ≤ a.wt s + k) : b.ww s ≤ a.ww s + k := by
  unfold LazyARA.ww
  rw [x.rn, x.num]; split <;> omega

theorem get_W {U : List Nat} (st : LazyARA) {t : Nat} (ht : t ∈ U) (h : AccIn U st) : AccIn U (st.getState t) ∧ W U (st.getState t) ≤ W U st := by
  unfold getState
  split
  next n =>
    refine ⟨?_, ?_⟩
    · intro u hu
      have hu : upd st.rn t st.num u = st.num := hu
      by_cases e : u = t
      · rw [e]; exact ht
      · rw [upd_other _ _ e] at hu; exact h u hu
    · refine sum_le ?_
      intro u
      show (if upd st.rn t st.num u = st.num then _ else 0) ≤ _
      by_cases e : u = t
      · subst e
        rw [upd_same, if_pos rfl]
        show (if upd st.isTrue u true u then 0 else 1) + (upd st.lazy u [] u).countP _ ≤ _
        rw [upd_same, upd_same]; simp
      · rw [upd_other _ _ e]
        show (if st.rn u = st.num then (if upd st.isTrue t true u then 0 else 1) + (upd st.lazy t [] u).countP _ else 0) ≤ _
        rw [upd_other _ _ e, upd_other _ _ e]; exact Nat.le_refl _
  next n => exact ⟨h, Nat.le_refl _⟩

theorem insert_Q {st st' : LazyARA} {s p c : Nat} {tr : Bool} (h : st.insertLazy s p c tr = .ok st') : st'.Q = st.Q := by
  have pq : ∀ {a b : LazyARA} {s : Nat}, a.putInHeap s = .ok b → b.Q = a.Q := by
    intro a b s h; obtain ⟨_, _, _, e⟩ := put_same h; rw [e]
  have sb : ∀ {a b : LazyARA} {s p c : Nat} {tr : Bool}, a.setBest s p c tr = .ok b → b.Q = a.Q := by
    intro a b s p c tr h; unfold setBest at h; have := pq h; exact this
  unfold insertLazy at h
  split at h
  · cases h; rfl
  · split at h
    · split at h <;> cases h <;> rfl
    · split at h
      · unfold saveBest at h
        split at h
        · cases h
        next st1 e1 =>
          split at e1
          · cases e1
          · cases e1; have := sb h; exact this
      · exact sb h

theorem get_Q (st : LazyARA) (t : Nat) : (st.getState t).Q = st.Q := by unfold getState; split <;> rfl

theorem expandLoop_W {U : List Nat} (nd : U.Nodup) {x : Nat} (es : List (Nat × Nat × Bool)) : ∀ {st st' : LazyARA}, QueuePerm st.Q → (∀ e ∈ es, e.1 ∈ U) →
    AccIn U st → expandLoop x es st = .ok st' → AccIn U st' ∧ W U st' ≤ W U st + es.length := by
  induction es with
  | nil => intro st st' _ _ a h; cases h; exact ⟨a, by simp⟩
  | cons e es ih =>
    intro st st' q hm a h
    obtain ⟨t, c, tr⟩ := e
    unfold expandLoop at h
    split at h
    · cases h
    next st1 e1 =>
      have ht : t ∈ U := hm _ List.mem_cons_self
      obtain ⟨a1, w1⟩ := get_W st ht a
      obtain ⟨c2, w2⟩ := insert_wt (by rw [get_Q]; exact q) e1
      have w3 : W U st1 ≤ W U (st.getState t) + 1 := c2.W (k := 0) (l := 1) nd ht (c2.ww 1 (by split at w2 <;> omega))
      obtain ⟨a4, w4⟩ := ih (by rw [insert_Q e1, get_Q]; exact q) (fun e he => hm e (List.mem_cons_of_mem _ he)) (c2.accIn a1) h
      refine ⟨a4, ?_⟩
      simp only [List.length_cons]; omega

/-- one turn of the loop -/
theorem step_W {U : List Nat} {st : LazyARA} {s0 gl : Nat} {H0 : Nat → Nat} (nd : U.Nodup) (q : QueuePerm st.Q) (b : Base wf st s0 gl H0)
    (hc : st.loopCond gl = true) (hU : ∀ u ∈ U, ∀ e ∈ st.nbr u, e.1 ∈ U) (a : AccIn U st) {r : Nat × Bool × LazyARA} (h : st.step = .ok r) :
    AccIn U r.2.2 ∧ W U r.2.2 + CW U r.2.2 + 1 ≤ W U st + CW U st ∧ Base wf r.2.2 s0 gl H0 ∧ Fr st r.2.2 := by
  have sp := step_spec (wf := wf) (fun _ _ _ => True) b hc
  rw [h] at sp
  obtain ⟨s, ex, st2⟩ := r
  obtain ⟨b2, t, _⟩ := (sp : Base wf st2 s0 gl H0 ∧ Turn st st2 s gl ex ∧ _)
  have fr := t.toFr
  have cwE : ∀ u, st2.closed u → st2.cw u = 0 := by intro u hu; unfold cw; exact if_pos hu
  have cwN : ∀ u, ¬ st2.closed u → st2.cw u = 1 + (st.nbr u).length := by intro u hu; unfold cw; rw [fr.nbr]; exact if_neg hu
  have cwE' : ∀ u, st.closed u → st.cw u = 0 := by intro u hu; unfold cw; exact if_pos hu
  have cwN' : ∀ u, ¬ st.closed u → st.cw u = 1 + (st.nbr u).length := by intro u hu; unfold cw; exact if_neg hu
  have as : st.rn s = st.num := b.hinv.openAcc t.wasOpen
  have sU := a s as
  unfold step at h
  split at h
  · cases h
  next s' h' e =>
    unfold visit at h
    split at h
    · cases h
    · split at h
      next ht =>
        split at h
        · cases h
        next st2' e2 =>
          cases h
          have e2 : expandLoop s (st.nbr s) _ = .ok st2 := e2
          have ew := expandLoop_W nd (st.nbr s) (by exact q) (hU s sU) (by exact a) e2
          obtain ⟨a2, w2⟩ := ew
          have w0 : W U st2 ≤ W U st + (st.nbr s).length := w2
          refine ⟨a2, ?_, b2, fr⟩
          have : CW U st2 + (1 + (st.nbr s).length) ≤ CW U st + 0 := by
            refine sum_at nd sU ?_ ?_
            · intro u n
              by_cases hu : st.closed u
              · rw [cwE' u hu, cwE u ((t.cl u).mpr (.inr hu))]
              · rw [cwN' u hu, cwN u (fun k => by rcases (t.cl u).mp k with k | k; exacts [n k.2, hu k])]
            · rw [cwE s ((t.cl s).mpr (.inl ⟨rfl, rfl⟩)), cwN' s t.notCl]; omega
          show W U st2 + CW U st2 + 1 ≤ _
          omega
      next ht =>
        split at h
        · cases h
        next st2' e2 =>
          cases h
          have hf : st.isTrue s = false := by simpa using ht
          obtain ⟨c2, w2⟩ := evaluate_wt (st := { st with heap := h' }) q (fun f l => (b.q.popNone f l).mp) hf e2
          have c2' : Chg st st2 s := ⟨c2.rn, c2.num, c2.oth⟩
          have w3 : W U st2 + 1 ≤ W U st + 0 := by
            refine c2'.W nd sU ?_
            unfold ww
            rw [c2'.rn, c2'.num, if_pos as, if_pos as]; exact w2
          refine ⟨c2'.accIn a, ?_, b2, fr⟩
          have : CW U st2 ≤ CW U st := by
            refine sum_le ?_
            intro u
            by_cases hu : st.closed u
            · rw [cwE' u hu, cwE u ((t.cl u).mpr (.inr hu))]
            · rw [cwN' u hu]
              by_cases hu' : st2.closed u
              · rw [cwE u hu']; omega
              · rw [cwN u hu']
          show W U st2 + CW U st2 + 1 ≤ _
          omega

theorem improveLoop_W {U : List Nat} {s0 gl : Nat} {H0 : Nat → Nat} (nd : U.Nodup) (n : Nat) : ∀ {st : LazyARA}, QueuePerm st.Q →
    Base wf st s0 gl H0 → (∀ u ∈ U, ∀ e ∈ st.nbr u, e.1 ∈ U) → AccIn U st → W U st + CW U st ≤ n →
    OkOr (improveLoop gl n st) (fun r => r.2.1 = false ∧ AccIn U r.1 ∧ W U r.1 ≤ W U st + CW U st) := by
  induction n with
  | zero =>
    intro st q b hU a le
    unfold improveLoop
    split
    next hc =>
      have sp := step_spec (wf := wf) (fun _ _ _ => True) b hc
      cases e : st.step with
      | error x =>
        -- a turn is possible, so something is left
        exfalso
        obtain ⟨hz, _⟩ := loopCond_iff.mp hc
        cases e' : st.heap.deleteMin with
        | error x => unfold Heap.deleteMin at e'; rw [if_neg hz] at e'; cases e'
        | ok r =>
          obtain ⟨s, h'⟩ := r
          obtain ⟨_, _, _, _, _, k, b5, _⟩ := deleteMin_spec b.hinv.bp b.hinv.ord e'
          have so : keyOf st.heap s ≠ none := by rw [b5]; simp
          have as := b.hinv.openAcc so
          have ni := b.hinv.opn s so
          have : CW U st + 0 ≥ 0 + 1 := by
            have := sum_at (f := fun _ => 0) (g := st.cw) (s := s) (a := 1) (b := 0) nd (a s as) (fun _ _ => Nat.zero_le _) (by
              unfold cw; rw [if_neg (fun h => ni h.2)]; omega)
            unfold CW
            omega
          omega
      | ok r =>
        have := (step_W nd q b hc hU a e).2.1
        omega
    next hc => exact ⟨rfl, a, by show W U st ≤ _; omega⟩
  | succ n ih =>
    intro st q b hU a le
    unfold improveLoop
    split
    next hc =>
      have sp := step_spec (wf := wf) (fun _ _ _ => True) b hc
      cases e : st.step with
      | error x => rw [e] at sp; exact sp
      | ok r =>
        obtain ⟨a2, w2, b2, fr⟩ := step_W nd q b hc hU a e
        obtain ⟨s, ex, st2⟩ := r
        simp only at a2 w2 b2 fr ⊢
        have i := ih (st := st2) (by rw [fr.Q]; exact q) b2 (by rw [fr.nbr]; exact hU) a2 (by omega)
        cases e3 : improveLoop gl n st2 with
        | error x => rw [e3] at i; exact i
        | ok r3 =>
          rw [e3] at i
          obtain ⟨st3, out, tr⟩ := r3
          obtain ⟨i1, i2, i3⟩ := (i : out = false ∧ AccIn U st3 ∧ W U st3 ≤ W U st2 + CW U st2)
          refine ⟨i1, i2, ?_⟩
          show W U st3 ≤ _
          exact Nat.le_trans i3 (by omega)
    next hc => exact ⟨rfl, a, by show W U st ≤ _; omega⟩

theorem adopt_W {U : List Nat} {a b : LazyARA} (h1 : b.isTrue = a.isTrue) (h2 : b.lazy = a.lazy) (h3 : b.rn = a.rn) (h4 : b.num = a.num) :
    W U b = W U a ∧ (AccIn U a → AccIn U b) := by
  constructor
  · unfold W ww wt; rw [h1, h2, h3, h4]
  · unfold AccIn; rw [h3, h4]; exact fun h => h

theorem restore_same (st : LazyARA) (gl : Nat) : (st.restoreGoal gl).isTrue = st.isTrue ∧ (st.restoreGoal gl).lazy = st.lazy ∧
    (st.restoreGoal gl).rn = st.rn ∧ (st.restoreGoal gl).num = st.num := by
  unfold restoreGoal; split <;> exact ⟨rfl, rfl, rfl, rfl⟩

theorem finish_same (st : LazyARA) (gl : Nat) : (st.finish gl).1.isTrue = st.isTrue ∧ (st.finish gl).1.lazy = st.lazy ∧
    (st.finish gl).1.rn = st.rn ∧ (st.finish gl).1.num = st.num := by
  unfold finish
  split
  · exact ⟨rfl, rfl, rfl, rfl⟩
  · split
    · exact ⟨rfl, rfl, rfl, rfl⟩
    · split <;> exact ⟨rfl, rfl, rfl, rfl⟩

theorem improvePath_W {U : List Nat} {s0 gl : Nat} {H0 : Nat → Nat} (nd : U.Nodup) (n : Nat) {st : LazyARA} (q : QueuePerm st.Q)
    (b : Base wf st s0 gl H0) (hU : ∀ u ∈ U, ∀ e ∈ st.nbr u, e.1 ∈ U) (a : AccIn U st) (le : W U st + CW U st ≤ n) :
    OkOr (st.improvePath gl n) (fun r => r.2.2.1 = false ∧ AccIn U r.1 ∧ W U r.1 ≤ W U st + CW U st) := by
  have i := improveLoop_W nd n q b hU a le
  unfold improvePath
  cases e : improveLoop gl n st with
  | error x => rw [e] at i; exact i
  | ok r =>
    rw [e] at i
    obtain ⟨st1, out, tr⟩ := r
    obtain ⟨i1, i2, i3⟩ := (i : out = false ∧ AccIn U st1 ∧ W U st1 ≤ W U st + CW U st)
    obtain ⟨r1, r2, r3, r4⟩ := restore_same st1 gl
    obtain ⟨f1, f2, f3, f4⟩ := finish_same (st1.restoreGoal gl) gl
    obtain ⟨x1, x2⟩ := adopt_W (U := U) (f1.trans r1) (f2.trans r2) (f3.trans r3) (f4.trans r4)
    refine ⟨i1, x2 i2, ?_⟩
    show W U ((st1.restoreGoal gl).finish gl).1 ≤ _
    rw [x1]; exact i3

/-- the state in which the next pass starts -/
theorem enter_next {s0 gl : Nat} {H0 : Nat → Nat} {n m : Nat} {st st1 st3 : LazyARA} {tr : List Nat} {x : Option Nat} (en : Enter wf st s0 gl H0 (n + 1))
    (pp : PassPost wf st s0 gl H0 (st1, m, false, tr)) (r1 : m = 1)
    (e3 : ({ st1 with epsSat := x } : LazyARA).prepareNext = .ok st3) :
    Enter wf st3 s0 gl H0 n ∧ FrS st st3 ∧ (∃ h f, st3 = { st1 with epsSat := x, heap := h, incons := [], inInc := f, eps := st1.epsNext, iter := st1.iter + 1 }) := by
  obtain ⟨st2, s2⟩ : ∃ st2, st2 = ({ st1 with epsSat := x } : LazyARA) := ⟨_, rfl⟩
  rw [← s2] at e3
  have fr2 : FrS st st2 := by
    have f := pp.fr.toFrS
    rw [s2]
    exact ⟨f.env, f.Q, f.fwd, f.D, f.num, f.initEps, f.finalEps, f.decEps, f.first, f.goalId, f.startId, f.rnE⟩
  have hinv2 : HInv st2 gl none := by
    have h := pp.hinv
    rw [s2]
    exact ⟨h.bp, h.ord, h.staleH, h.incAcc, h.incNodup, h.incFlag, h.keys, h.openLt, h.incLt, h.ltIn, h.opn, h.inc, h.iterLe, h.iterLt⟩
  have v2 : st2.v = st1.v := by rw [s2]
  have g2 : st2.g = st1.g := by rw [s2]
  have vgq : st2.v gl = st2.g gl := by rw [v2, g2]; exact pp.gv r1
  have iE : st2.iter = st.iter := by rw [s2]; exact pp.fr.iter
  have it := en.iter
  have pr := prepare_spec hinv2 (by rw [iE]; omega)
  rw [e3] at pr
  obtain ⟨⟨h3, f3, s3⟩, hinv3⟩ := (pr : PrepPost _ _ _)
  have fr3 : FrS st2 st3 := by
    rw [s3]; exact ⟨rfl, rfl, rfl, rfl, rfl, rfl, rfl, rfl, rfl, rfl, rfl, fun _ => .inl rfl⟩
  have fr03 := fr2.trans fr3
  have v3 : st3.v = st2.v := by rw [s3]
  have g3 : st3.g = st2.g := by rw [s3]
  obtain ⟨bs1, on⟩ := pp.next rfl
  simp only at bs1 on
  have hv3 : Hv st3 s0 gl H0 := by
    have := bs1.hv
    rw [s3, s2]; exact this
  have sd3 : Sound st3 s0 := by
    have i := bs1.sound
    rw [s3, s2]
    exact ⟨i.startAcc, i.startG, i.startT, i.startV, i.vInf, i.gCase, i.untrue, i.truth,
      fun s hs e he => ⟨(i.elem s hs e he).acc, (i.elem s hs e he).pos, (i.elem s hs e he).lt, (i.elem s hs e he).tru, (i.elem s hs e he).lzy⟩,
      i.clear, i.vPtr⟩
  have base3 : Base wf st3 s0 gl H0 := by
    refine ⟨?_, ?_, sd3, hinv3, ?_, ?_, hv3⟩
    · rw [fr03.Q]; exact en.base.q
    · rw [fr03.nbr]; exact en.base.pos
    · rw [s3, s2]; exact bs1.accG
    · rw [s3, s2]; exact bs1.goalIt
  have gtr : st3.isTrue gl = true := by
    cases ht : st3.isTrue gl with
    | true => rfl
    | false =>
      have lt := (sd3.untrue gl base3.accG ht).1
      rw [v3, g3] at lt
      omega
  have it3 : st3.iter = st.iter + 1 := by rw [s3]; show st2.iter + 1 = _; rw [iE]
  have j3 : J st3 s0 gl := by
    rintro E _ s c ⟨hc1, hc2⟩ _
    exfalso
    rw [it3] at hc2
    have a2 : st2.acc s := by rw [s3] at hc1; exact hc1
    have := hinv2.iterLe s a2
    rw [iE] at this
    rw [s3] at hc2
    have hc2 : st2.iterC s = st.iter + 1 := hc2
    omega
  refine ⟨⟨base3, ?_, .inl gtr, j3, by rw [it3]; omega⟩, fr03, h3, f3, by rw [s3, s2]; rfl⟩
  have := pp.epg
  unfold EpG at this ⊢
  rw [s3, s2]; exact this

theorem OkOrT.ok {α : Type} {f : Bool} {r : Except Err α} {P : α → Prop} {a : α} (h : OkOrT f r P) (e : r = .ok a) : P a := by rw [e] at h; exact h
theorem OkOr.ok {α : Type} {r : Except Err α} {P : α → Prop} {a : α} (h : OkOr r P) (e : r = .ok a) : P a := by rw [e] at h; exact h

/-- what a search that is given enough time ends with -/
structure FullPost (st : LazyARA) (bs : List Nat) (r : LazyARA × Bool × List Pass) : Prop where
  out : ∀ p ∈ r.2.2, p.out = false
  first : bs ≠ [] → st.notDone = true → r.2.1 = true → st.first = true → r.1.epsSat = some st.eps
  last : bs ≠ [] → st.notDone = true → r.2.1 = true → st.first = false → st.eps ≤ st.finalEps + (bs.length - 1) * st.decEps →
    ∃ e, r.1.epsSat = some e ∧ e ≤ st.finalEps

theorem searchLoop_W {U : List Nat} {s0 gl : Nat} {H0 : Nat → Nat} (hg : H0 gl = 0) (nd : U.Nodup) (bs : List Nat) : ∀ {st : LazyARA}, QueuePerm st.Q →
    Enter wf st s0 gl H0 bs.length → (∀ u ∈ U, ∀ e ∈ st.nbr u, e.1 ∈ U) → AccIn U st → (∀ n ∈ bs, W U st + bs.length * TW U st ≤ n) →
    (st.first = true → bs ≠ []) → OkOr (searchLoop gl bs st) (FullPost st bs) := by
  induction bs with
  | nil =>
    intro st q en hU a le hf
    unfold searchLoop
    split
    next h => exact absurd rfl (hf h.2)
    next h => exact ⟨by simp, by simp, by simp⟩
  | cons n bs ih =>
    intro st q en hU a le hf
    unfold searchLoop
    split
    next nd' =>
      have le1 := le n List.mem_cons_self
      simp only [List.length_cons, Nat.add_mul, Nat.one_mul] at le1
      have cl := CW_le U st
      have pw := improvePath_W nd n q en.base hU a (by omega)
      have ps := improvePath_spec n en.base en.ep hg
      cases e : st.improvePath gl n with
      | error x => rw [e] at pw; exact pw
      | ok r =>
        obtain ⟨st1, ret, out, tr⟩ := r
        obtain ⟨w1, w2, w3⟩ := (pw.ok e : out = false ∧ AccIn U st1 ∧ W U st1 ≤ W U st + CW U st)
        have w3 : W U st1 ≤ W U st + CW U st := w3
        subst w1
        have pp : PassPost wf st s0 gl H0 (st1, ret, false, tr) := ps.ok e
        have r2 : ret ≠ 2 := fun h => by have := pp.two h; cases this
        have rg : ret ≤ 2 := pp.range
        have eE : st1.eps = st.eps := pp.fr.eps
        have fE : st1.first = st.first := pp.fr.first
        simp only
        split
        next h0 =>
          refine ⟨?_, by simp, by simp⟩
          intro p hp; rw [List.mem_singleton] at hp; rw [hp]
        next h0 =>
          have r1 : ret = 1 := by omega
          simp only [r1, if_true]
          split
          next h1 =>
            have h1 : st1.first = true := by rcases h1 with h1 | h1; exacts [h1, by omega]
            refine ⟨?_, ?_, ?_⟩
            · intro p hp; rw [List.mem_singleton] at hp; rw [hp]
            · intro _ _ _ _; rw [← eE]
            · intro _ _ _ h; rw [← fE, h1] at h; cases h
          next h1 =>
            have nf : st1.first = false := by
              cases h : st1.first with
              | false => rfl
              | true => exact absurd (.inl h) h1
            cases e3 : ({ st1 with epsSat := some st1.eps } : LazyARA).prepareNext with
            | error x =>
              have h := pp.hinv
              have it := en.iter
              have iE : st1.iter = st.iter := pp.fr.iter
              simp only [List.length_cons] at it
              have pr := prepare_spec (st := { st1 with epsSat := some st1.eps }) (gl := gl)
                ⟨h.bp, h.ord, h.staleH, h.incAcc, h.incNodup, h.incFlag, h.keys, h.openLt, h.incLt, h.ltIn, h.opn, h.inc, h.iterLe, h.iterLt⟩
                (by show st1.iter + 1 < _; rw [iE]; omega)
              rw [e3] at pr
              exact pr
            | ok st3 =>
              obtain ⟨en3, fr, h3, f3, s3⟩ := enter_next en pp r1 e3
              obtain ⟨x1, x2⟩ := adopt_W (U := U) (a := st1) (b := st3) (by rw [s3]) (by rw [s3]) (by rw [s3]) (by rw [s3])
              have tw : TW U st3 = TW U st := by unfold TW; rw [fr.nbr]
              have nf3 : st3.first = false := by rw [fr.first, ← fE]; exact nf
              have i := ih (st := st3) (by rw [fr.Q]; exact q) en3 (by rw [fr.nbr]; exact hU) (x2 w2) (by
                intro k hk
                have := le k (List.mem_cons_of_mem _ hk)
                simp only [List.length_cons, Nat.add_mul, Nat.one_mul] at this
                rw [x1, tw]; omega) (fun h => by rw [nf3] at h; cases h)
              simp only [Bool.false_eq_true, if_false]
              cases e4 : searchLoop gl bs st3 with
              | error x => rw [e4] at i; exact i
              | ok r =>
                obtain ⟨st4, ok, pl⟩ := r
                have fp : FullPost st3 bs (st4, ok, pl) := i.ok e4
                refine ⟨?_, ?_, ?_⟩
                · intro p hp
                  rcases List.mem_cons.mp hp with rfl | hp
                  · rfl
                  · exact fp.out p hp
                · intro _ _ _ h; rw [← fE, nf] at h; cases h
                · intro _ _ hok _ hle
                  have fin3 : st3.finalEps = st.finalEps := fr.finalEps
                  have sat3 : st3.epsSat = some st.eps := by rw [s3]; exact congrArg some eE
                  have nd3 : st3.notDone = decide (st.eps > st.finalEps) := by unfold notDone; rw [sat3, fin3]
                  by_cases le0 : st.eps ≤ st.finalEps
                  · have : st4 = st3 := by
                      have hn : ¬ st3.notDone = true := by rw [nd3]; simp; exact le0
                      cases bs with
                      | nil =>
                        unfold searchLoop at e4
                        rw [if_neg (fun h => hn h.1)] at e4
                        cases e4; rfl
                      | cons _ _ =>
                        unfold searchLoop at e4
                        rw [if_neg hn] at e4
                        cases e4; rfl
                    exact ⟨st.eps, by rw [this]; exact sat3, le0⟩
                  · cases bs with
                    | nil => simp at hle; omega
                    | cons n' bs' =>
                      have e3' : st3.eps = if st.eps - st.decEps < st.finalEps then st.finalEps else st.eps - st.decEps := by
                        have d1 : st1.decEps = st.decEps := pp.fr.decEps
                        have d2 : st1.finalEps = st.finalEps := pp.fr.finalEps
                        rw [s3]
                        show st1.epsNext = _
                        unfold epsNext
                        rw [eE, d1, d2]
                      have := fp.last (by simp) (by rw [nd3]; simp; omega) hok nf3 (by
                        have d1 : st3.decEps = st.decEps := fr.decEps
                        rw [e3', fin3, d1]
                        simp only [List.length_cons, Nat.add_sub_cancel, Nat.add_mul, Nat.one_mul] at hle ⊢
                        split <;> omega)
                      rw [fin3] at this
                      exact this
    next nd' => exact ⟨by simp, fun _ h => absurd h nd', fun _ h => absurd h nd'⟩

theorem getPre_W {U : List Nat} (st : LazyARA) {t : Nat} (ht : t ∈ U) (h : AccIn U st) : AccIn U (st.getStatePre t) ∧ W U (st.getStatePre t) ≤ W U st := by
  unfold getStatePre
  split
  next n =>
    refine ⟨?_, ?_⟩
    · intro u hu
      have hu : upd st.rn t st.num u = st.num := hu
      by_cases e : u = t
      · rw [e]; exact ht
      · rw [upd_other _ _ e] at hu; exact h u hu
    · refine sum_le ?_
      intro u
      show (if upd st.rn t st.num u = st.num then _ else 0) ≤ _
      by_cases e : u = t
      · subst e
        rw [upd_same, if_pos rfl]
        show (if upd st.isTrue u true u then 0 else 1) + (upd st.lazy u [] u).countP _ ≤ _
        rw [upd_same, upd_same]; simp
      · rw [upd_other _ _ e]
        show (if st.rn u = st.num then (if upd st.isTrue t true u then 0 else 1) + (upd st.lazy t [] u).countP _ else 0) ≤ _
        rw [upd_other _ _ e, upd_other _ _ e]; exact Nat.le_refl _
  next n => exact ⟨h, Nat.le_refl _⟩

theorem init_W {U : List Nat} {st st' : LazyARA} {s0 gl : Nat} (hs : Hist st) (nm : st.num + 1 < SHORT - 1) (h0 : s0 ∈ U) (hg : gl ∈ U)
    (e : st.initSearch s0 gl = .ok st') : AccIn U st' ∧ W U st' = 0 := by
  have mod : (st.num + 1) % SHORT = st.num + 1 := Nat.mod_eq_of_lt (by omega)
  obtain ⟨st1, hst1⟩ : ∃ st1, st1 = ({ st with num := (st.num + 1) % SHORT, iter := 0, heap := st.heap.makeEmpty, incons := [], eps := st.initEps, epsSat := none } : LazyARA) := ⟨_, rfl⟩
  have na : ∀ u, st1.rn u ≠ st1.num := by
    intro u h
    rw [hst1] at h
    have h : st.rn u = (st.num + 1) % SHORT := h
    rw [mod] at h
    have := hs.rn u
    omega
  have a1 : AccIn U st1 := fun u h => absurd h (na u)
  have w1 : W U st1 ≤ 0 := by
    have : (U.map st1.ww).sum ≤ (U.map fun _ => 0).sum := by
      refine sum_le ?_
      intro u; unfold ww; rw [if_neg (na u)]
    have z : (U.map fun _ => 0).sum = 0 := by
      clear this
      clear h0 hg a1
      induction U with
      | nil => rfl
      | cons x U ih => simp only [List.map_cons, List.sum_cons, ih]
    unfold W; omega
  unfold initSearch at e
  simp only at e
  rw [← hst1] at e
  have two : ∀ a b, a ∈ U → b ∈ U → AccIn U ((st1.getStatePre a).getStatePre b) ∧ W U ((st1.getStatePre a).getStatePre b) ≤ 0 := by
    intro a b ha hb
    obtain ⟨x1, x2⟩ := getPre_W st1 ha a1
    obtain ⟨y1, y2⟩ := getPre_W (st1.getStatePre a) hb x1
    exact ⟨y1, by omega⟩
  obtain ⟨st2, e2, a2, w2⟩ : ∃ st2, st2 = (if st.fwd then (st1.getStatePre gl).getStatePre s0 else (st1.getStatePre s0).getStatePre gl) ∧ AccIn U st2 ∧ W U st2 ≤ 0 := by
    refine ⟨_, rfl, ?_⟩
    split
    · exact two _ _ hg h0
    · exact two _ _ h0 hg
  rw [← e2] at e
  split at e
  · cases e
  · cases e
    exact ⟨a2, Nat.le_zero.mp w2⟩

theorem getPath_ok {st : LazyARA} {s0 gl fuel : Nat} {r : LazyARA × List Nat × Nat} (h : st.getSearchPath fuel s0 gl = .ok r) : r.1.epsSat = st.epsSat := by
  unfold getSearchPath at h
  simp only at h
  split at h
  · cases h
  · cases h
    dsimp only
    split
    · rfl
    · rfl

/-- a search that is given enough time -/
structure SearchFull (st : LazyARA) (bs : List Nat) (r : Result) : Prop where
  out : ∀ p ∈ r.passes, p.out = false
  first : r.found = true → st.first = true → r.finalEps = some st.initEps
  last : r.found = true → st.first = false → st.initEps ≤ st.finalEps + (bs.length - 1) * st.decEps → ∃ e, r.finalEps = some e ∧ e ≤ st.finalEps

theorem search_W {U : List Nat} {st : LazyARA} {s0 gl : Nat} {bs : List Nat} (q : QueueOk st.Q wf) (qp : QueuePerm st.Q)
    (pos : ∀ p s c f, (s, c, f) ∈ st.nbr p → 1 ≤ c) (hs : Hist st)
    (nm : st.num + 1 < SHORT - 1) (nn : bs.length < SHORT - 1) (hg : st.hPre gl = 0) (nd : U.Nodup) (h0 : s0 ∈ U) (hgl : gl ∈ U)
    (hU : ∀ u ∈ U, ∀ e ∈ st.nbr u, e.1 ∈ U) (hb : bs ≠ []) (le : ∀ n ∈ bs, bs.length * TW U st ≤ n) :
    OkOr (st.search bs s0 gl) (fun r => SearchFull st bs r.2) := by
  have ss := search_spec (wf := wf) (s0 := s0) (gl := gl) (bs := bs) q pos hs nm nn hg
  have is := init_spec (s0 := s0) (gl := gl) q pos hs nm nn
  unfold search at ss ⊢
  cases e : st.initSearch s0 gl with
  | error x => rw [e] at is; exact is
  | ok st1 =>
    obtain ⟨fr1, en, op, epE, sat⟩ := (is.ok e : InitPost wf st s0 gl bs.length st1)
    obtain ⟨a1, w1⟩ := init_W hs nm h0 hgl e
    have nb : st1.nbr = st.nbr := fr1.nbr
    have tw : TW U st1 = TW U st := by unfold TW; rw [nb]
    have sl := searchLoop_W hg nd bs (st := st1) (by have : st1.Q = st.Q := fr1.Q; rw [this]; exact qp) en (by rw [nb]; exact hU) a1
      (by rw [w1, tw]; simpa using le) (fun _ => hb)
    rw [e] at ss
    simp only at ss ⊢
    cases e2 : searchLoop gl bs st1 with
    | error x => rw [e2] at sl; exact sl
    | ok r =>
      obtain ⟨st2, ok, ps⟩ := r
      have fp : FullPost st1 bs (st2, ok, ps) := sl.ok e2
      rw [e2] at ss
      simp only at ss ⊢
      have nd1 : st1.notDone = true := by unfold notDone; rw [sat]
      split
      next h => exact ⟨fp.out, by simp, by simp⟩
      next h =>
        rw [if_neg h] at ss
        have hok : ok = true := by
          cases ok with
          | true => rfl
          | false => exact absurd (.inl rfl) h
        cases e3 : st2.getSearchPath (st2.g gl + st2.v gl + 1) s0 gl with
        | error x =>
          rw [e3] at ss
          rcases ss with ss | ⟨ss, _⟩
          · exact ss
          · exfalso
            -- GetSearchPath does not loop
            have lp : SLPost wf st1 s0 gl st.hPre bs (st2, ok, ps) := (searchLoop_spec hg bs en).ok e2
            have t := lp.tail
            have EE : st2.E = st1.E := lp.frs.E
            obtain ⟨_, _, _, _, h1, _⟩ := getSearchPath_spec (fuel := st2.g gl + st2.v gl + 1) (by rw [EE]; exact en.base.posE) t
              (fun k => h (.inr k)) (Nat.lt_succ_self _)
            rw [e3] at h1; cases h1
        | ok r3 =>
          obtain ⟨st3, p, c⟩ := r3
          have es : st3.epsSat = st2.epsSat := getPath_ok e3
          have d1 : st1.first = st.first := fr1.first
          have d2 : st1.finalEps = st.finalEps := fr1.finalEps
          have d3 : st1.decEps = st.decEps := fr1.decEps
          refine ⟨fp.out, ?_, ?_⟩
          · intro _ hf
            show st3.epsSat = _
            rw [es, ← epE]
            exact fp.first hb nd1 hok (by rw [d1]; exact hf)
          · intro _ hf hle
            show ∃ e, st3.epsSat = _ ∧ _
            rw [es, ← d2]
            exact fp.last hb nd1 hok (by rw [d1]; exact hf) (by rw [epE, d2, d3]; exact hle)

end Sbpl.LazyARA
