import Verif.Proofs.ADCore
import Verif.Proofs.ARASearch
/-! AD*: data structures, OPEN/INCONS membership, and the refinement of single steps. -/

namespace Sbpl.AD
open GraphSpec ARA Heap

/-- effective values of a planner state -/
def vals (st : ARA) : Vals :=
  ⟨st.acc, st.G, st.V, fun s => if st.acc s then st.ptr s else none⟩

theorem ptrOf_eq (st : ARA) (s : Nat) : ptrOf st s = st.ptr s := rfl

/-- the state explores the search graph `g` with search goal `gl` -/
structure IsGr (st : ARA) (g : Gr) (gl : Nat) : Prop where
  base : st.base = g.B
  rev : rev st = g.R
  heur : st.heur gl = g.H
  goal : st.goal = some gl
  start : st.start = some g.s0
  nbr : ∀ s, g.A s → st.nbr s = g.B s

/-- membership invariant; at state `x` the membership may be out of date -/
structure MInv (st : ARA) (x : Option Nat) : Prop where
  data : Data st
  mem : ∀ s, some s ≠ x → st.acc s → ((keyOf st.heap s ≠ none ∨ st.Inc s) ↔ st.v s ≠ st.g s)
  disj : ∀ s, ¬ (keyOf st.heap s ≠ none ∧ st.Inc s)
  it : 1 ≤ st.iter
  opn : ∀ s, keyOf st.heap s ≠ none → st.iterC s ≠ st.iter
  iterLe : ∀ s, st.acc s → st.iterC s ≤ st.iter
  inc : st.bNew = false → ∀ s, some s ≠ x → st.Inc s → st.iterC s = st.iter
  keys : st.bReeval = false → ∀ s k, some s ≠ x → keyOf st.heap s = some k → k = keyFor st s

structure MemPost (st : ARA) (t : Nat) (st' : ARA) : Prop where
  eq : st' = { st with heap := st'.heap, incons := st'.incons }
  data : Data st'
  oth : ∀ u, u ≠ t → keyOf st'.heap u = keyOf st.heap u ∧ (st'.Inc u ↔ st.Inc u)
  opn : st.v t ≠ st.g t → st.iterC t ≠ st.iter → keyOf st'.heap t = some (keyFor st t) ∧ ¬ st'.Inc t
  cls : st.v t ≠ st.g t → st.iterC t = st.iter → st'.Inc t ∧ keyOf st'.heap t = keyOf st.heap t
  cons : st.v t = st.g t → keyOf st'.heap t = none ∧ ¬ st'.Inc t

theorem idx_ne {h : Heap CKey} {s : Nat} : h.idx s ≠ 0 ↔ keyOf h s ≠ none := by
  rw [Ne, ← keyOf_none]

theorem heap_delete_ok {h : Heap CKey} {s : Nat} (n : keyOf h s ≠ none) : ∃ h', h.delete s = .ok h' := by
  unfold Heap.delete
  rw [if_neg (idx_ne.mpr n)]
  exact ⟨_, rfl⟩

theorem heap_update_ok {h : Heap CKey} {s : Nat} {k : CKey} (n : keyOf h s ≠ none) : ∃ h', h.update s k = .ok h' := by
  unfold Heap.update
  rw [if_neg (idx_ne.mpr n)]
  split <;> exact ⟨_, rfl⟩

theorem list_remove_total {l : CList} {m : List Nat} (r : CList.Rel l m) {s : Nat} (n : l.elem s ≠ none) :
    ∃ l', l.remove s = .ok l' ∧ (∃ m', Nonempty (CList.Rel l' m')) ∧
      ∀ t, l'.elem t ≠ none ↔ t ≠ s ∧ l.elem t ≠ none := by
  have hs : s ∈ m := by
    have := r.elem_isSome s
    rw [← Option.isSome_iff_ne_none, this] at n
    simpa using n
  obtain ⟨l', e, _⟩ := CList.remove_rel r s hs
  obtain ⟨a, b⟩ := list_remove_ok r hs e
  exact ⟨l', e, ⟨_, a⟩, b⟩

theorem heap_data {st : ARA} (d : Data st) {h : Heap CKey} (bp : BP h) (ord : Ordered h)
    (st' : ∀ s, ¬ st.acc s → keyOf h s = none) : Data { st with heap := h } :=
  ⟨bp, ord, d.lrel, d.callLe, st', d.staleL⟩

theorem setMembership_spec {st : ARA} {t : Nat} (d : Data st) (ac : st.acc t)
    (dj : ¬ (keyOf st.heap t ≠ none ∧ st.Inc t)) : OkOr (setMembership st t) (MemPost st t) := by
  obtain ⟨m, ⟨r⟩⟩ := d.lrel
  unfold setMembership
  by_cases vg : st.v t ≠ st.g t
  · rw [if_pos vg]
    by_cases it : st.iterC t ≠ st.iter
    · rw [if_pos it]
      unfold toOpen
      by_cases ix : st.heap.idx t = 0
      · have kn := keyOf_none.mpr ix
        rw [if_pos ix]
        by_cases el : st.incons.elem t = none
        · rw [if_pos el]
          cases e : st.heap.insert t (keyFor st t) with
          | error x => exact .inl (by rw [heap_insert_err kn e])
          | ok h =>
            obtain ⟨b1, b2, _, b4, _, _⟩ := insert_spec d.bp e
            refine ⟨rfl, heap_data d b1 (b4 d.ord) ?_, ?_, ?_, fun _ x => absurd x it, fun x => absurd x vg⟩
            · intro s hs
              have : s ≠ t := by rintro rfl; exact hs ac
              rw [b2, upd_other _ _ this]; exact d.staleH s hs
            · intro u hu
              exact ⟨by simp only [b2, upd_other _ _ hu], Iff.rfl⟩
            · intro _ _
              exact ⟨by simp only [b2, upd_same], by simp [Inc, el]⟩
        · rw [if_neg el]
          obtain ⟨l', e1, rl, hm⟩ := list_remove_total r el
          rw [e1]; simp only
          cases e : st.heap.insert t (keyFor st t) with
          | error x => exact .inl (by rw [heap_insert_err kn e])
          | ok h =>
            obtain ⟨b1, b2, _, b4, _, _⟩ := insert_spec d.bp e
            refine ⟨rfl, ⟨b1, b4 d.ord, rl, d.callLe, ?_, ?_⟩, ?_, ?_, fun _ x => absurd x it, fun x => absurd x vg⟩
            · intro s hs
              have : s ≠ t := by rintro rfl; exact hs ac
              simp only [b2, upd_other _ _ this]; exact d.staleH s hs
            · intro s hs
              by_contra c
              exact ((hm s).mp c).2 (d.staleL s hs)
            · intro u hu
              refine ⟨by simp only [b2, upd_other _ _ hu], ?_⟩
              have := hm u
              simp only [Inc]
              rw [this]; simp [hu]
            · intro _ _
              refine ⟨by simp only [b2, upd_same], ?_⟩
              intro c
              exact ((hm t).mp c).1 rfl
      · have kn := idx_ne.mp ix
        rw [if_neg ix]
        obtain ⟨h, e⟩ := heap_update_ok (k := keyFor st t) kn
        rw [e]
        obtain ⟨b1, b2, _, b4, _, _⟩ := update_spec d.bp d.ord e
        refine ⟨rfl, heap_data d b1 b4 ?_, ?_, ?_, fun _ x => absurd x it, fun x => absurd x vg⟩
        · intro s hs
          have : s ≠ t := by rintro rfl; exact hs ac
          rw [b2, upd_other _ _ this]; exact d.staleH s hs
        · intro u hu
          exact ⟨by simp only [b2, upd_other _ _ hu], Iff.rfl⟩
        · intro _ _
          refine ⟨by simp only [b2, upd_same], ?_⟩
          intro c; exact dj ⟨kn, c⟩
    · rw [if_neg it]
      have it' : st.iterC t = st.iter := by simpa using it
      by_cases el : st.incons.elem t = none
      · rw [if_pos el]
        cases e : st.incons.insert t with
        | error x => exact .inr (by rw [list_insert_err r el e])
        | ok l =>
          obtain ⟨rl, hm⟩ := list_insert_ok r el e
          refine ⟨rfl, ⟨d.bp, d.ord, rl, d.callLe, d.staleH, ?_⟩, ?_, fun _ x => absurd it' x, ?_, fun x => absurd x vg⟩
          · intro s hs
            by_contra c
            rcases (hm s).mp c with rfl | c
            · exact hs ac
            · exact c (d.staleL s hs)
          · intro u hu
            refine ⟨rfl, ?_⟩
            have := hm u
            simp only [Inc]; rw [this]; simp [hu]
          · intro _ _
            exact ⟨(hm t).mpr (.inl rfl), rfl⟩
      · rw [if_neg el]
        exact ⟨rfl, d, fun _ _ => ⟨rfl, Iff.rfl⟩, fun _ x => absurd it' x, fun _ _ => ⟨el, rfl⟩, fun x => absurd x vg⟩
  · rw [if_neg vg]
    have vg' : st.v t = st.g t := by simpa using vg
    by_cases ix : st.heap.idx t ≠ 0
    · rw [if_pos ix]
      have kn := idx_ne.mp ix
      obtain ⟨h, e⟩ := heap_delete_ok kn
      rw [e]
      obtain ⟨b1, b2, _, b4, _, _⟩ := delete_spec d.bp d.ord e
      refine ⟨rfl, heap_data d b1 b4 ?_, ?_, fun x => absurd vg' x, fun x => absurd vg' x, ?_⟩
      · intro s hs
        rw [b2]; simp only [upd]; split
        · rfl
        · exact d.staleH s hs
      · intro u hu
        exact ⟨by simp only [b2, upd_other _ _ hu], Iff.rfl⟩
      · intro _
        refine ⟨by simp only [b2, upd_same], ?_⟩
        intro c; exact dj ⟨kn, c⟩
    · rw [if_neg ix]
      have kn : keyOf st.heap t = none := keyOf_none.mpr (by simpa using ix)
      by_cases el : st.incons.elem t ≠ none
      · rw [if_pos el]
        obtain ⟨l', e1, rl, hm⟩ := list_remove_total r el
        rw [e1]
        refine ⟨rfl, ⟨d.bp, d.ord, rl, d.callLe, d.staleH, ?_⟩, ?_, fun x => absurd vg' x, fun x => absurd vg' x, ?_⟩
        · intro s hs
          by_contra c
          exact ((hm s).mp c).2 (d.staleL s hs)
        · intro u hu
          refine ⟨rfl, ?_⟩
          have := hm u
          simp only [Inc]; rw [this]; simp [hu]
        · intro _
          refine ⟨kn, ?_⟩
          intro c
          exact ((hm t).mp c).1 rfl
      · rw [if_neg el]
        exact ⟨rfl, d, fun _ _ => ⟨rfl, Iff.rfl⟩, fun x => absurd vg' x, fun x => absurd vg' x, fun _ => ⟨kn, el⟩⟩

/-- only heap and INCONS differ -/
def HL (a b : ARA) : Prop := b = { a with heap := b.heap, incons := b.incons }

theorem setMembership_minv {st : ARA} {t : Nat} (i : MInv st (some t)) (ac : st.acc t) :
    OkOr (setMembership st t) (fun st' => MInv st' none ∧ HL st st') := by
  refine (setMembership_spec i.data ac (i.disj t)).imp ?_
  intro st' p
  refine ⟨?_, p.eq⟩
  have e := p.eq
  have eg : st'.g = st.g := by rw [e]
  have ev : st'.v = st.v := by rw [e]
  have eh : st'.h = st.h := by rw [e]
  have ei : st'.iterC = st.iterC := by rw [e]
  have et : st'.iter = st.iter := by rw [e]
  have ea : ∀ s, st'.acc s ↔ st.acc s := by intro s; rw [e]; exact Iff.rfl
  have ek : ∀ s, keyFor st' s = keyFor st s := by intro s; rw [e]; rfl
  have eb : st'.bNew = st.bNew := by rw [e]
  have er : st'.bReeval = st.bReeval := by rw [e]
  refine ⟨p.data, ?_, ?_, by rw [et]; exact i.it, ?_, ?_, ?_, ?_⟩
  · intro s _ hs
    rw [ev, eg]
    by_cases q : s = t
    · subst q
      by_cases vg : st.v s = st.g s
      · have := p.cons vg; simp [this.1, this.2, vg]
      · by_cases it : st.iterC s = st.iter
        · have := p.cls vg it; simp [this.1, vg]
        · have := p.opn vg it; simp [this.1, vg]
    · rw [(p.oth s q).1, (p.oth s q).2]
      exact i.mem s (by simpa using q) ((ea s).mp hs)
  · intro s
    by_cases q : s = t
    · subst q
      by_cases vg : st.v s = st.g s
      · have := p.cons vg; simp [this.1]
      · by_cases it : st.iterC s = st.iter
        · have := p.cls vg it
          rw [this.2]
          intro hh; exact i.opn s hh.1 it
        · have := p.opn vg it; simp [this.2]
    · rw [(p.oth s q).1, (p.oth s q).2]; exact i.disj s
  · intro s hs
    rw [ei, et]
    by_cases q : s = t
    · subst q
      by_cases vg : st.v s = st.g s
      · exact absurd (p.cons vg).1 hs
      · intro it
        rw [(p.cls vg it).2] at hs
        exact i.opn s hs it
    · rw [(p.oth s q).1] at hs; exact i.opn s hs
  · intro s hs; rw [ei, et]; exact i.iterLe s ((ea s).mp hs)
  · intro nb s _ hs
    rw [eb] at nb
    rw [ei, et]
    by_cases q : s = t
    · subst q
      by_cases vg : st.v s = st.g s
      · exact absurd hs (p.cons vg).2
      · by_contra it
        exact (p.opn vg it).2 hs
    · rw [(p.oth s q).2] at hs; exact i.inc nb s (by simpa using q) hs
  · intro nr s k _ hs
    rw [er] at nr
    rw [ek]
    by_cases q : s = t
    · subst q
      by_cases vg : st.v s = st.g s
      · rw [(p.cons vg).1] at hs; cases hs
      · by_cases it : st.iterC s = st.iter
        · rw [(p.cls vg it).2] at hs
          exact absurd it (i.opn s (by rw [hs]; simp))
        · rw [(p.opn vg it).1] at hs; cases hs; rfl
    · rw [(p.oth s q).1] at hs; exact i.keys nr s k (by simpa using q) hs

theorem HL.refl (a : ARA) : HL a a := rfl

theorem setGP_minv {st : ARA} (i : MInv st none) (t n : Nat) (p : Option Nat) : MInv (setGP st t n p) (some t) := by
  have go : ∀ s, s ≠ t → (setGP st t n p).g s = st.g s := fun s q => by simp [setGP, upd_other _ _ q]
  refine ⟨⟨i.data.bp, i.data.ord, i.data.lrel, i.data.callLe, i.data.staleH, i.data.staleL⟩, ?_, i.disj, i.it, i.opn, i.iterLe, ?_, ?_⟩
  · intro s q hs
    have q' : s ≠ t := by rintro rfl; exact q rfl
    rw [go s q']
    exact i.mem s (by simp) hs
  · intro nb s _ hs; exact i.inc nb s (by simp) hs
  · intro nr s k q hs
    have q' : s ≠ t := by rintro rfl; exact q rfl
    have := i.keys nr s k (by simp) hs
    rw [this]
    unfold keyFor
    rw [go s q']
    rfl

theorem touch_keyFor {st : ARA} (d : Data st) (s t : Nat) (h : t ≠ s) : keyFor (st.touch s) t = keyFor st t := by
  have o := touch_other d s t h
  have f := touch_frame d s
  unfold keyFor
  rw [o.1, o.2.1, o.2.2.1, f.D, f.eps]

theorem touch_minv {st : ARA} (i : MInv st none) (s : Nat) : MInv (st.touch s) none := by
  by_cases a : st.acc s
  · rw [touch_self_acc i.data a]; exact i
  obtain ⟨n1, n2, n3, n4, n5⟩ := touch_self_new i.data a
  obtain ⟨e1, e2, e3, e4, _⟩ := touch_heap i.data s
  have fr := touch_frame i.data s
  have oth := touch_other i.data s
  have nes : ∀ t, (st.touch s).acc t → t ≠ s → st.acc t :=
    fun t h q => (((touch_acc_iff i.data s t).mp h).resolve_left q)
  have ih : ∀ t, (st.touch s).Inc t ↔ st.Inc t := by intro t; simp only [Inc, e2]
  refine ⟨touch_data i.data s, ?_, ?_, by rw [e4]; exact i.it, ?_, ?_, ?_, ?_⟩
  · intro t _ h
    rw [e1, ih]
    by_cases q : t = s
    · subst q
      rw [n1, n2, i.data.staleH t a]
      have := i.data.staleL t a
      simp [Inc, this]
    · rw [(oth t q).1, (oth t q).2.1]; exact i.mem t (by simp) (nes t h q)
  · intro t; rw [e1, ih]; exact i.disj t
  · intro t h
    rw [e1] at h
    have q : t ≠ s := by rintro rfl; exact a (i.data.openAcc h)
    rw [(oth t q).2.2.2.1, e4]; exact i.opn t h
  · intro t h
    by_cases q : t = s
    · subst q; rw [n3]; omega
    · rw [(oth t q).2.2.2.1, e4]; exact i.iterLe t (nes t h q)
  · intro nb t _ h
    rw [fr.bNew] at nb
    rw [ih] at h
    have q : t ≠ s := by rintro rfl; exact a (i.data.incAcc h)
    rw [(oth t q).2.2.2.1, e4]; exact i.inc nb t (by simp) h
  · intro nr t k _ h
    rw [fr.bReeval] at nr
    rw [e1] at h
    have q : t ≠ s := by rintro rfl; exact a (i.data.openAcc (by rw [h]; simp))
    rw [touch_keyFor i.data s t q]; exact i.keys nr t k (by simp) h

/-- scalar fields are unchanged, touched states stay touched -/
structure Fr (a b : ARA) : Prop where
  env : b.env = a.env
  fwd : b.fwd = a.fwd
  D : b.D = a.D
  call : b.call = a.call
  iter : b.iter = a.iter
  start : b.start = a.start
  goal : b.goal = a.goal
  eps : b.eps = a.eps
  epsSat : b.epsSat = a.epsSat
  bReeval : b.bReeval = a.bReeval
  bReinit : b.bReinit = a.bReinit
  bNew : b.bNew = a.bNew
  initEps : b.initEps = a.initEps
  finalEps : b.finalEps = a.finalEps
  decEps : b.decEps = a.decEps
  first : b.first = a.first
  accM : ∀ s, a.acc s → b.acc s

theorem Fr.refl (a : ARA) : Fr a a :=
  ⟨rfl, rfl, rfl, rfl, rfl, rfl, rfl, rfl, rfl, rfl, rfl, rfl, rfl, rfl, rfl, rfl, fun _ h => h⟩

theorem Fr.trans {a b c : ARA} (x : Fr a b) (y : Fr b c) : Fr a c := by
  constructor
  all_goals first
    | exact fun s h => y.accM s (x.accM s h)
    | simp only [x.env, y.env, x.fwd, y.fwd, x.D, y.D, x.call, y.call, x.iter, y.iter, x.start, y.start, x.goal,
        y.goal, x.eps, y.eps, x.epsSat, y.epsSat, x.bReeval, y.bReeval, x.bReinit, y.bReinit, x.bNew, y.bNew,
        x.initEps, y.initEps, x.finalEps, y.finalEps, x.decEps, y.decEps, x.first, y.first]

theorem HL.fr {a b : ARA} (h : HL a b) : Fr a b := by
  rw [h]; exact ⟨rfl, rfl, rfl, rfl, rfl, rfl, rfl, rfl, rfl, rfl, rfl, rfl, rfl, rfl, rfl, rfl, fun _ h => h⟩

theorem touch_fr {st : ARA} (d : Data st) (s : Nat) : Fr st (st.touch s) := by
  have f := touch_frame d s
  exact ⟨f.env, f.fwd, f.D, f.call, f.iter, f.start, f.goal, f.eps, f.epsSat, f.bReeval, f.bReinit, f.bNew, f.initEps,
    f.finalEps, f.decEps, f.first, f.accM⟩

theorem setGP_fr (st : ARA) (t n : Nat) (p : Option Nat) : Fr st (setGP st t n p) :=
  ⟨rfl, rfl, rfl, rfl, rfl, rfl, rfl, rfl, rfl, rfl, rfl, rfl, rfl, rfl, rfl, rfl, fun _ h => h⟩

theorem IsGr.fr {a b : ARA} {g : Gr} {gl : Nat} (i : IsGr a g gl) (f : Fr a b) : IsGr b g gl := by
  have e1 : b.base = a.base := by funext s; simp only [ARA.base, f.env, f.fwd, f.start]
  have e2 : AD.rev b = AD.rev a := by funext s; simp only [AD.rev, f.env, f.fwd, f.start, f.goal]
  have e3 : b.heur gl = a.heur gl := by funext s; simp only [ARA.heur, f.env, f.fwd]
  have e4 : b.nbr = a.nbr := by funext s; simp only [ARA.nbr, f.env, f.fwd, f.start, f.goal]
  exact ⟨by rw [e1]; exact i.base, by rw [e2]; exact i.rev, by rw [e3]; exact i.heur, by rw [f.goal]; exact i.goal,
    by rw [f.start]; exact i.start, by rw [e4]; exact i.nbr⟩

/-! effective values -/

theorem HL.vals {a b : ARA} (h : HL a b) : vals b = vals a := by rw [h]; rfl
theorem HL.h {a b : ARA} (h : HL a b) : b.h = a.h := by rw [h]
theorem HL.closed {a b : ARA} (h : HL a b) (s : Nat) : b.closed s ↔ a.closed s := by rw [h]; exact Iff.rfl

theorem touch_vals {st : ARA} (d : Data st) (s : Nat) :
    vals (st.touch s) = { vals st with a := (st.touch s).acc } := by
  have h1 : (st.touch s).G = st.G := by funext t; exact touch_G d s t
  have h2 : (st.touch s).V = st.V := by funext t; exact touch_V d s t
  have h3 : (fun t => if (st.touch s).acc t then (st.touch s).ptr t else none) =
      fun t => if st.acc t then st.ptr t else none := by
    funext t
    by_cases q : t = s
    · subst q
      rw [if_pos (touch_acc d t)]
      by_cases a : st.acc t
      · rw [touch_self_acc d a, if_pos a]
      · rw [if_neg a, (touch_self_new d a).2.2.2.2]
    · rw [(touch_other d s t q).2.2.2.2.2]
      have := touch_acc_iff d s t
      simp only [q, false_or] at this
      by_cases a : st.acc t
      · rw [if_pos a, if_pos (this.mpr a)]
      · rw [if_neg a, if_neg (fun x => a (this.mp x))]
  unfold AD.vals
  rw [h1, h2, h3]

theorem setGP_vals {st : ARA} {t : Nat} (a : st.acc t) (n : Nat) (p : Option Nat) :
    vals (setGP st t n p) = { vals st with G := upd st.G t n, P := upd (vals st).P t p } := by
  have hG : (setGP st t n p).G = upd st.G t n := by
    funext u
    by_cases q : u = t
    · subst q
      rw [upd_same]
      have : (setGP st u n p).acc u := a
      rw [G_acc this]; simp [setGP]
    · rw [upd_other _ _ q]
      have e : (setGP st t n p).g u = st.g u := by simp [setGP, upd_other _ _ q]
      unfold ARA.G
      rw [e]; rfl
  have hP : (vals (setGP st t n p)).P = upd (vals st).P t p := by
    funext u
    have hp : (setGP st t n p).ptr u = if u = t then p else st.ptr u := by
      simp only [setGP, ARA.ptr]
      by_cases f : st.fwd = true
      · simp only [f, if_true, upd]
      · simp only [f, Bool.false_eq_true, if_false, upd]
    show (if (setGP st t n p).acc u then (setGP st t n p).ptr u else none) = _
    rw [hp]
    by_cases q : u = t
    · subst q
      rw [if_pos rfl, upd_same]
      exact if_pos a
    · rw [if_neg q, upd_other _ _ q]
      rfl
  show Vals.mk _ _ _ _ = _
  have hP' : (fun s => if (setGP st t n p).acc s then (setGP st t n p).ptr s else none) = upd (vals st).P t p := hP
  rw [hG, hP']
  rfl

theorem bestOf_best (st : ARA) (es : List (Nat × Nat)) : ∀ r : Nat × Option Nat, r.1 ≤ INF →
    (bestOf st es r).1 ≤ r.1 ∧ (∀ u c, (u, c) ∈ es → (bestOf st es r).1 ≤ st.V u + c) ∧
    (bestOf st es r = r ∨ ∃ u c, (bestOf st es r).2 = some u ∧ (u, c) ∈ es ∧ st.V u + c = (bestOf st es r).1 ∧
      (bestOf st es r).1 < INF) := by
  induction es with
  | nil => intro r _; exact ⟨Nat.le_refl _, by simp, .inl rfl⟩
  | cons e es ih =>
    obtain ⟨u, c⟩ := e
    intro r hr
    unfold bestOf
    by_cases h : st.callA u = st.call ∧ r.1 > st.v u + c
    · rw [if_pos h]
      have vu : st.V u = st.v u := V_acc h.1
      obtain ⟨i1, i2, i3⟩ := ih (st.v u + c, some u) (by simp only; omega)
      simp only at i1
      refine ⟨by omega, ?_, .inr ?_⟩
      · intro u' c' hm
        rw [List.mem_cons] at hm
        rcases hm with hm | hm
        · cases hm; rw [vu]; exact i1
        · exact i2 u' c' hm
      · rcases i3 with i3 | ⟨u', c', h1, h2, h3⟩
        · rw [i3]; exact ⟨u, c, rfl, by simp, by rw [vu], by simp only; omega⟩
        · exact ⟨u', c', h1, by simp [h2], h3⟩
    · rw [if_neg h]
      obtain ⟨i1, i2, i3⟩ := ih r hr
      refine ⟨i1, ?_, ?_⟩
      · intro u' c' hm
        rw [List.mem_cons] at hm
        rcases hm with hm | hm
        · cases hm
          by_cases a : st.acc u
          · have : ¬ r.1 > st.v u + c := fun x => h ⟨a, x⟩
            rw [V_acc a]; omega
          · rw [V_stale a]; omega
        · exact i2 u' c' hm
      · rcases i3 with i3 | ⟨u', c', h1, h2, h3⟩
        · exact .inl i3
        · exact .inr ⟨u', c', h1, by simp [h2], h3⟩

theorem bestOf_spec {st : ARA} {t : Nat} (a : st.acc t) :
    Best (vals st).V (rev st t) ((vals st).P t) (bestOf st (rev st t) (INFINITECOST, ptrOf st t)) := by
  obtain ⟨h1, h2, h3⟩ := bestOf_best st (rev st t) (INFINITECOST, ptrOf st t) (Nat.le_refl _)
  have hP : (vals st).P t = ptrOf st t := if_pos a
  refine ⟨h1, h2, ?_, ?_⟩
  · intro lt
    rcases h3 with h3 | ⟨u, c, e1, e2, e3, _⟩
    · rw [h3] at lt; exact absurd lt (Nat.lt_irrefl _)
    · exact ⟨u, c, e1, e2, e3⟩
  · intro e
    rcases h3 with h3 | ⟨u, c, e1, e2, e3, e4⟩
    · rw [h3, hP]
    · rw [e] at e4; exact absurd e4 (Nat.lt_irrefl _)

/-! ### Loops over the edges of the expanded state -/

/-- loop invariant: everything that does not depend on the kind of expansion -/
structure LInv (st : ARA) (g : Gr) (gl : Nat) : Prop where
  m : MInv st none
  gr : IsGr st g gl
  hok : HOk st gl

theorem touch_linv {st : ARA} {g : Gr} {gl : Nat} (i : LInv st g gl) (s : Nat) : LInv (st.touch s) g gl :=
  ⟨touch_minv i.m s, i.gr.fr (touch_fr i.m.data s), touch_hok i.m.data i.gr.goal i.hok s⟩

theorem HL.hok {a b : ARA} (h : HL a b) {gl : Nat} (k : HOk a gl) : HOk b gl := by rw [h]; exact k

theorem setGP_hok {st : ARA} {gl t n : Nat} {p : Option Nat} (k : HOk st gl) : HOk (setGP st t n p) gl := k

/-- change of `g` and back pointer of a touched state followed by UpdateSetMembership -/
theorem assign_spec {st : ARA} {g : Gr} {gl t : Nat} (i : LInv st g gl) (a : st.acc t) (n : Nat) (p : Option Nat) :
    OkOr (setMembership (setGP st t n p) t) (fun st' => LInv st' g gl ∧ Fr st st' ∧
      vals st' = { vals st with G := upd st.G t n, P := upd (vals st).P t p } ∧ (∀ s, st'.closed s ↔ st.closed s)) := by
  refine (setMembership_minv (setGP_minv i.m t n p) a).imp ?_
  intro st' ⟨m, hl⟩
  have f := (setGP_fr st t n p).trans hl.fr
  exact ⟨⟨m, i.gr.fr f, hl.hok (setGP_hok i.hok)⟩, f, by rw [hl.vals]; exact setGP_vals a n p,
    fun s => (hl.closed s).trans Iff.rfl⟩

structure OverPost (st st' : ARA) (g : Gr) (F : Prop) (gl s : Nat) (es : List (Nat × Nat)) : Prop where
  l : LInv st' g gl
  f : Fr st st'
  v : VInv g F (vals st') s es 0 0 []
  cl : ∀ t, st'.closed t ↔ st.closed t
  vEq : st'.V = st.V
  gLe : ∀ t, st'.G t ≤ st.G t
  jn : ∀ C, Jn g (vals st) C → Jn g (vals st') C

theorem overOne_spec {st : ARA} {g : Gr} {F : Prop} {gl s t c : Nat} {es : List (Nat × Nat)} (i : LInv st g gl)
    (v : VInv g F (vals st) s ((t, c) :: es) 0 0 []) (hb : (t, c) ∈ g.B s) (as : st.acc s) :
    OkOr (overOne st s t c) (fun st' => OverPost st st' g F gl s es) := by
  have i1 := touch_linv i t
  have f1 := touch_fr i.m.data t
  have ac := touch_acc i.m.data t
  have v1 : VInv g F (vals (st.touch t)) s ((t, c) :: es) 0 0 [] := by
    rw [touch_vals i.m.data]; exact v.grow f1.accM
  have hV : (st.touch t).V = st.V := by funext u; exact touch_V i.m.data t u
  have hG : (st.touch t).G = st.G := by funext u; exact touch_G i.m.data t u
  have hC := touch_closed i.m.data i.m.it t
  have hJ : ∀ C, Jn g (vals st) C → Jn g (vals (st.touch t)) C := by
    intro C j; rw [touch_vals i.m.data]; exact j
  have as1 := f1.accM s as
  unfold overOne
  dsimp only
  have gt : (vals (st.touch t)).G t = (st.touch t).g t := G_acc ac
  have vs : (vals (st.touch t)).V s = (st.touch t).v s := V_acc as1
  split
  next lt =>
    refine (assign_spec i1 ac _ _).imp ?_
    rintro st' ⟨l, f, ev, cl⟩
    have lt' : (vals (st.touch t)).V s + c < (vals (st.touch t)).G t := by rw [gt, vs]; exact lt
    have := over_relax v1 hb ac lt'
    rw [vs] at this lt'
    refine ⟨l, f1.trans f, by rw [ev]; exact this, fun u => (cl u).trans (hC u), ?_, ?_, ?_⟩
    · have : (vals st').V = st.V := by rw [ev]; exact hV
      exact this
    · intro u
      have : (vals st').G u = upd (st.touch t).G t ((st.touch t).v s + c) u := by rw [ev]
      rw [show st'.G u = (vals st').G u from rfl, this, hG]
      by_cases q : u = t
      · subst q; rw [upd_same]
        have : st.G u = (vals (st.touch u)).G u := by rw [show (vals (st.touch u)).G = st.G from hG]
        rw [this]; omega
      · rw [upd_other _ _ q]
    · intro C j
      rw [ev]
      exact (hJ C j).lower (by omega)
  next nlt =>
    exact ⟨i1, f1, over_skip v1 ac (by rw [gt, vs]; omega), hC, hV, fun u => by rw [hG], hJ⟩

theorem overAll_spec {g : Gr} {F : Prop} {gl s : Nat} (es : List (Nat × Nat)) : ∀ {st : ARA}, LInv st g gl →
    VInv g F (vals st) s es 0 0 [] → (∀ e ∈ es, e ∈ g.B s) → st.acc s →
    OkOr (overAll s es st) (fun st' => OverPost st st' g F gl s []) := by
  induction es with
  | nil =>
    intro st i v _ _
    exact ⟨i, Fr.refl st, v, fun _ => Iff.rfl, rfl, fun _ => Nat.le_refl _, fun _ h => h⟩
  | cons e es ih =>
    obtain ⟨t, c⟩ := e
    intro st i v hb as
    unfold overAll
    have o := overOne_spec i v (hb _ (by simp)) as
    cases e1 : overOne st s t c with
    | error x => rw [e1] at o; exact o
    | ok st1 =>
      rw [e1] at o
      simp only
      have o : OverPost st st1 g F gl s es := o
      refine (ih o.l o.v (fun e he => hb e (by simp [he])) (o.f.accM s as)).imp ?_
      intro st2 p
      exact ⟨p.l, o.f.trans p.f, p.v, fun u => (p.cl u).trans (o.cl u), p.vEq.trans o.vEq,
        fun u => Nat.le_trans (p.gLe u) (o.gLe u), fun C j => p.jn C (o.jn C j)⟩

structure UnderPost (st st' : ARA) (g : Gr) (F : Prop) (gl s v0 : Nat) (ys : List (Nat × Nat)) : Prop where
  l : LInv st' g gl
  f : Fr st st'
  v : VInv g F (vals st') 0 [] s v0 ys
  cl : ∀ t, st'.closed t ↔ st.closed t
  vEq : st'.V = st.V
  jn : ∀ C, Jn g (vals st) C → (∀ c, C c → st.V c + g.H c < v0 + g.H s) → Jn g (vals st') C

theorem underOne_spec {st : ARA} {g : Gr} {F : Prop} {gl s v0 t c : Nat} {ys : List (Nat × Nat)} (go : GOk g)
    (i : LInv st g gl) (v : VInv g F (vals st) 0 [] s v0 ((t, c) :: ys)) (vs : st.V s = INF) :
    OkOr (underOne st s t) (fun st' => UnderPost st st' g F gl s v0 ys) := by
  have i1 := touch_linv i t
  have f1 := touch_fr i.m.data t
  have ac := touch_acc i.m.data t
  have v1 : VInv g F (vals (st.touch t)) 0 [] s v0 ((t, c) :: ys) := by
    rw [touch_vals i.m.data]; exact v.grow f1.accM
  have hV : (st.touch t).V = st.V := by funext u; exact touch_V i.m.data t u
  have hC := touch_closed i.m.data i.m.it t
  have hJ : ∀ C, Jn g (vals st) C → Jn g (vals (st.touch t)) C := by
    intro C j; rw [touch_vals i.m.data]; exact j
  have hP : (vals (st.touch t)).P t = ptrOf (st.touch t) t := if_pos ac
  unfold underOne
  dsimp only
  split
  next hp =>
    rw [← hP] at hp
    have b := bestOf_spec ac
    rw [i1.gr.rev] at b
    unfold recompute
    rw [i1.gr.rev]
    refine (assign_spec i1 ac _ _).imp ?_
    rintro st' ⟨l, f, ev, cl⟩
    refine ⟨l, f1.trans f, by rw [ev]; exact under_recompute v1 go hp b, fun u => (cl u).trans (hC u), ?_, ?_⟩
    · have : (vals st').V = st.V := by rw [ev]; exact hV
      exact this
    · intro C j f0
      rw [ev]
      refine (hJ C j).recompute v1 go hp ?_ ?_ b
      · show (st.touch t).V s = INF
        rw [hV]; exact vs
      · intro k hk
        show (st.touch t).V k + g.H k < v0 + g.H s
        rw [hV]; exact f0 k hk
  next hp =>
    rw [← hP] at hp
    exact ⟨i1, f1, under_skip v1 hp, hC, hV, fun C j _ => hJ C j⟩

theorem underAll_spec {g : Gr} {F : Prop} {gl s v0 : Nat} (go : GOk g) (ys : List (Nat × Nat)) : ∀ {st : ARA},
    LInv st g gl → VInv g F (vals st) 0 [] s v0 ys → st.V s = INF →
    OkOr (underAll s ys st) (fun st' => UnderPost st st' g F gl s v0 []) := by
  induction ys with
  | nil =>
    intro st i v _
    exact ⟨i, Fr.refl st, v, fun _ => Iff.rfl, rfl, fun _ h _ => h⟩
  | cons e ys ih =>
    obtain ⟨t, c⟩ := e
    intro st i v vs
    unfold underAll
    have o := underOne_spec go i v vs
    cases e1 : underOne st s t with
    | error x => rw [e1] at o; exact o
    | ok st1 =>
      rw [e1] at o
      simp only
      have o : UnderPost st st1 g F gl s v0 ys := o
      refine (ih o.l o.v (by rw [o.vEq]; exact vs)).imp ?_
      intro st2 p
      exact ⟨p.l, o.f.trans p.f, p.v, fun u => (p.cl u).trans (o.cl u), p.vEq.trans o.vEq,
        fun C j f0 => p.jn C (o.jn C j f0) (by rw [o.vEq]; exact f0)⟩

end Sbpl.AD
