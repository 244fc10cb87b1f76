import Verif.Proofs.ARALoop
/-! ARA*: new iterations, re-keying, re-initialisation, the Search loop. -/

namespace Sbpl.ARA
open GraphSpec Heap

def K1 (st : ARA) : Prop := ∀ s k, keyOf st.heap s = some k → k.k1 = 0

theorem Keys.k1 {st : ARA} (h : Keys st) : K1 st := by
  intro s k e; rw [h s k e]; rfl

theorem getFirst_rel {l : CList} {m : List Nat} (r : CList.Rel l m) : l.getFirst = .ok m.head? := by
  unfold CList.getFirst
  rw [r.first, CList.stateAt_hd r.seg rfl, r.st]

theorem list_remove_ok {l l' : CList} {m : List Nat} (r : CList.Rel l m) {s : Nat} (n : s ∈ m)
    (x : l.remove s = .ok l') : Nonempty (CList.Rel l' (m.erase s)) ∧
      ∀ t, l'.elem t ≠ none ↔ t ≠ s ∧ l.elem t ≠ none := by
  obtain ⟨l2, e, ⟨r2⟩⟩ := CList.remove_rel r s n
  rw [e] at x; cases x
  refine ⟨⟨r2⟩, ?_⟩
  intro t
  rw [← Option.isSome_iff_ne_none, ← Option.isSome_iff_ne_none, r2.elem_isSome, r.elem_isSome]
  simp [r.nds.mem_erase_iff]

theorem Inc_iff {st : ARA} {m : List Nat} (r : CList.Rel st.incons m) (s : Nat) : st.Inc s ↔ s ∈ m := by
  rw [Inc, ← Option.isSome_iff_ne_none, r.elem_isSome]; simp

structure BuildPost (st st' : ARA) (s0 : Nat) : Prop where
  eq : st' = { st with heap := st'.heap, incons := st'.incons }
  data : Data st'
  core : Core st' s0 0 []
  empty : ∀ s, ¬ st'.Inc s
  keys : Keys st → Keys st'
  k1 : K1 st → K1 st'

theorem buildLoop_spec {s0 : Nat} (n : Nat) : ∀ {st : ARA} {m : List Nat}, Data st → Core st s0 0 [] →
    CList.Rel st.incons m → m.length < n → OkOr (buildLoop n st) (fun st' => BuildPost st st' s0) := by
  induction n with
  | zero => intro st m _ _ _ h; omega
  | succ n ih =>
    intro st m d c r hl
    unfold buildLoop
    rw [getFirst_rel r]
    cases m with
    | nil =>
      refine ⟨rfl, d, c, ?_, fun h => h, fun h => h⟩
      intro s h
      have := (Inc_iff r s).mp h
      cases this
    | cons s m =>
      simp only [List.head?_cons]
      have hs : st.Inc s := (Inc_iff r s).mpr (by simp)
      have nO : keyOf st.heap s = none := by
        by_contra h; exact c.disj s ⟨h, hs⟩
      have as := d.incAcc hs
      cases e : st.heap.insert s (st.keyFor s) with
      | error x => exact .inl (by rw [heap_insert_err nO e])
      | ok h' =>
        obtain ⟨l', e2, _⟩ := CList.remove_rel r s (by simp)
        obtain ⟨⟨r2⟩, hE⟩ := list_remove_ok r (by simp) e2
        simp only [e2]
        obtain ⟨b1, b2, _, b4, _⟩ := insert_spec d.bp e
        generalize hst : ({ st with heap := h', incons := l' } : ARA) = st1
        have hh : st1.heap = h' := by rw [← hst]
        have ll : st1.incons = l' := by rw [← hst]
        have gE : st1.g = st.g := by rw [← hst]
        have vE : st1.v = st.v := by rw [← hst]
        have iE : ∀ t, st1.Inc t ↔ t ≠ s ∧ st.Inc t := by intro t; rw [Inc, ll]; exact hE t
        have ac : ∀ t, st1.acc t ↔ st.acc t := by intro t; rw [← hst]; exact Iff.rfl
        have kE : ∀ t, t ≠ s → keyOf st1.heap t = keyOf st.heap t := by
          intro t q; rw [hh, b2, upd_other _ _ q]
        have kS : keyOf st1.heap s = some (st.keyFor s) := by rw [hh, b2, upd_same]
        have d1 : Data st1 := by
          refine ⟨by rw [hh]; exact b1, by rw [hh]; exact b4 d.ord, ⟨_, by rw [ll]; exact ⟨r2⟩⟩, ?_, ?_, ?_⟩
          · intro t; rw [← hst]; exact d.callLe t
          · intro t h
            rw [ac] at h
            have q : t ≠ s := by rintro rfl; exact h as
            rw [kE t q]; exact d.staleH t h
          · intro t h
            rw [ac] at h
            by_contra x
            exact ((iE t).mp x).2 (d.staleL t h)
        have c1 : Core st1 s0 0 [] := by
          refine ⟨(ac _).mpr c.startAcc, by rw [gE]; exact c.startG, ?_, ?_, ?_, ?_, ?_, ?_, ?_, ?_, ?_⟩
          · intro t h; rw [gE, vE]; exact c.gv t ((ac t).mp h)
          · intro t h; rw [vE]; exact c.vInf t ((ac t).mp h)
          · intro t h
            have := c.iterLe t ((ac t).mp h)
            rw [← hst]; exact this
          · intro u t k h
            have := c.edge u t k (by rw [← hst] at h; exact h)
            rw [← hst]; exact this
          · intro t h1 h2 h3
            have := c.ptrOk t ((ac t).mp h1) (by rw [gE] at h2; exact h2) h3
            rw [← hst]; exact this
          · intro t h
            rw [gE, vE]
            by_cases q : t = s
            · subst q; exact c.incLt t hs
            · rw [kE t q] at h; exact c.openLt t h
          · intro t h
            rw [gE, vE]; exact c.incLt t ((iE t).mp h).2
          · intro t h lt
            rw [gE, vE] at lt
            by_cases q : t = s
            · subst q; left; rw [kS]; simp
            · rw [kE t q, iE]
              rcases c.ltIn t ((ac t).mp h) lt with x | x
              · exact .inl x
              · exact .inr ⟨q, x⟩
          · rintro t ⟨h1, h2⟩
            rw [iE] at h2
            rw [kE t h2.1] at h1
            exact c.disj t ⟨h1, h2.2⟩
        have rr : CList.Rel st1.incons ((s :: m).erase s) := by rw [ll]; exact r2
        rw [List.erase_cons_head] at rr
        have := ih d1 c1 rr (by simp only [List.length_cons] at hl; omega)
        refine this.imp ?_
        intro st2 p
        have kf : ∀ t, st1.keyFor t = st.keyFor t := by intro t; rw [← hst]; rfl
        refine ⟨?_, p.data, p.core, p.empty, ?_, ?_⟩
        · have := p.eq
          rw [this, ← hst]
        · intro hk
          apply p.keys
          intro t k h
          rw [kf]
          by_cases q : t = s
          · subst q; rw [kS] at h; cases h; rfl
          · rw [kE t q] at h; exact hk t k h
        · intro hk
          apply p.k1
          intro t k h
          by_cases q : t = s
          · subst q; rw [kS] at h; cases h; rfl
          · rw [kE t q] at h; exact hk t k h

theorem buildNewOpen_spec {st : ARA} {s0 : Nat} (d : Data st) (c : Core st s0 0 []) :
    OkOr st.buildNewOpen (fun st' => BuildPost st st' s0) := by
  obtain ⟨m, ⟨r⟩⟩ := d.lrel
  exact buildLoop_spec _ d c r (by rw [r.size]; omega)

theorem rekey_spec (st : ARA) (arr : Nat → HElem CKey) (n : Nat) : ∀ i, rekey st arr n i =
    if 1 ≤ i ∧ i ≤ n then ⟨(arr i).st, ⟨((st.g (arr i).st + infl st.D st.eps (st.h (arr i).st) : Nat) : Int),
      (arr i).key.k1⟩⟩ else arr i := by
  induction n with
  | zero => intro i; rw [if_neg (by omega)]; rfl
  | succ n ih =>
    intro i
    unfold rekey
    simp only
    by_cases q : i = n + 1
    · subst q
      have e : rekey st arr n (n + 1) = arr (n + 1) := by rw [ih, if_neg (by omega)]
      rw [upd_same, e, if_pos (by omega)]
    · rw [upd_other _ _ q, ih]
      by_cases b : 1 ≤ i ∧ i ≤ n
      · rw [if_pos b, if_pos (by omega)]
      · rw [if_neg b, if_neg (by omega)]

theorem reevalF_spec {st : ARA} (d : Data st) (k1 : K1 st) :
    Data st.reevalF ∧ Keys st.reevalF ∧ (∀ s, keyOf st.reevalF.heap s = none ↔ keyOf st.heap s = none) := by
  generalize hh : ({ st.heap with arr := st.rekey st.heap.arr st.heap.size } : Heap CKey) = h1
  have a1 : h1.arr = st.rekey st.heap.arr st.heap.size := by rw [← hh]
  have a2 : h1.size = st.heap.size := by rw [← hh]
  have a3 : h1.idx = st.heap.idx := by rw [← hh]
  have sts : ∀ i, (h1.arr i).st = (st.heap.arr i).st := by
    intro i; rw [a1, rekey_spec]; split <;> rfl
  have b1 : BP h1 := by
    constructor
    · intro i i1 i2
      rw [sts, a3]; exact d.bp.fwd i i1 (by rw [← a2]; exact i2)
    · intro s hs
      rw [a3] at hs ⊢
      obtain ⟨x, y⟩ := d.bp.bwd s hs
      exact ⟨by rw [a2]; exact x, by rw [sts]; exact y⟩
  obtain ⟨m1, m2, m3⟩ := makeHeap_spec b1
  have hE : st.reevalF.heap = h1.makeHeap := by rw [← hh]; rfl
  have kk : ∀ s, keyOf st.reevalF.heap s = keyOf h1 s := by intro s; rw [hE]; exact m2.key s
  have kn : ∀ s, keyOf st.reevalF.heap s = none ↔ keyOf st.heap s = none := by
    intro s; rw [kk, keyOf_none, keyOf_none, a3]
  refine ⟨⟨by rw [hE]; exact m1, by rw [hE]; exact m3, d.lrel, d.callLe, ?_, d.staleL⟩, ?_, kn⟩
  · intro s h; rw [kn]; exact d.staleH s h
  · intro s k h
    rw [kk] at h
    simp only [keyOf, kat, a3] at h
    split at h
    · cases h
    next ix =>
      cases h
      obtain ⟨x, y⟩ := d.bp.bwd s ix
      have := k1 s (st.heap.kat (st.heap.idx s)) (by simp [keyOf, ix])
      rw [a1, rekey_spec, if_pos ⟨by omega, x⟩, y]
      simp only [kat] at this
      rw [this]; rfl

/-- Invariant between the passes of the Search loop. -/
structure SInv (st : ARA) (s0 gl : Nat) : Prop where
  data : Data st
  core : Core st s0 0 []
  start : st.start = some s0
  goal : st.goal = some gl
  hok : HOk st gl
  k1 : K1 st
  reinit : st.bReinit = false
  keys : st.bReeval = false → Keys st
  phase : st.bNew = false → Phase st
  satAcc : ∀ e, st.epsSat = some e → st.acc gl ∧ st.G gl < INF
  jj : st.bNew = false → J st s0 gl
  sat : st.heur gl gl = 0 → ∀ e, st.epsSat = some e →
    ∀ (E : Bnd) c, E.M ≤ E.N → UpTo st.base (st.heur gl) st.D e E.N E.M → Walk st.base s0 gl c → E.M * st.G gl ≤ E.N * c

theorem decrease_cases (st : ARA) : st.decrease = st ∨
    ∃ e, st.decrease = { st with eps := e, bReeval := true, bNew := true } := by
  unfold decrease
  split
  · exact .inr ⟨_, rfl⟩
  · exact .inl rfl

theorem decrease_inv {st : ARA} {s0 gl : Nat} (i : SInv st s0 gl) : SInv st.decrease s0 gl := by
  rcases decrease_cases st with h | ⟨e, h⟩
  · rw [h]; exact i
  · rw [h]
    exact ⟨⟨i.data.bp, i.data.ord, i.data.lrel, i.data.callLe, i.data.staleH, i.data.staleL⟩,
      ⟨i.core.startAcc, i.core.startG, i.core.gv, i.core.vInf, i.core.iterLe, i.core.edge, i.core.ptrOk,
        i.core.openLt, i.core.incLt, i.core.ltIn, i.core.disj⟩,
      i.start, i.goal, i.hok, i.k1, i.reinit, by simp, by simp, i.satAcc, by simp, i.sat⟩

/-- things that never change during Search -/
structure SFrame (a b : ARA) : Prop where
  env : b.env = a.env
  fwd : b.fwd = a.fwd
  D : b.D = a.D
  start : b.start = a.start
  goal : b.goal = a.goal
  initEps : b.initEps = a.initEps
  finalEps : b.finalEps = a.finalEps
  decEps : b.decEps = a.decEps
  first : b.first = a.first
  accM : ∀ s, a.acc s → b.acc s

theorem SFrame.refl (a : ARA) : SFrame a a := ⟨rfl, rfl, rfl, rfl, rfl, rfl, rfl, rfl, rfl, fun _ h => h⟩
theorem SFrame.trans {a b c : ARA} (x : SFrame a b) (y : SFrame b c) : SFrame a c := by
  constructor
  all_goals first
    | exact fun s h => y.accM s (x.accM s h)
    | simp only [x.env, y.env, x.fwd, y.fwd, x.D, y.D, x.start, y.start, x.goal, y.goal, x.initEps, y.initEps,
        x.finalEps, y.finalEps, x.decEps, y.decEps, x.first, y.first]
theorem Frame.s {a b : ARA} (x : Frame a b) : SFrame a b :=
  ⟨x.env, x.fwd, x.D, x.start, x.goal, x.initEps, x.finalEps, x.decEps, x.first, x.accM⟩
theorem SFrame.nbr {a b : ARA} (f : SFrame a b) : b.nbr = a.nbr := by
  funext s; simp only [ARA.nbr, f.env, f.fwd, f.goal, f.start]
theorem SFrame.base {a b : ARA} (f : SFrame a b) : b.base = a.base := by
  funext s; simp only [ARA.base, f.env, f.fwd, f.start]
theorem SFrame.heur {a b : ARA} (f : SFrame a b) : b.heur = a.heur := by
  funext gl s; simp only [ARA.heur, f.env, f.fwd]
theorem NbrOk.sframe {a b : ARA} {gl : Nat} (h : NbrOk a gl) (f : SFrame a b) : NbrOk b gl := by
  unfold NbrOk; rw [f.nbr, f.base]; exact h

theorem decrease_sframe (st : ARA) : SFrame st st.decrease := by
  rcases decrease_cases st with h | ⟨e, h⟩
  · rw [h]; exact SFrame.refl _
  · rw [h]; exact ⟨rfl, rfl, rfl, rfl, rfl, rfl, rfl, rfl, rfl, fun _ h => h⟩

theorem newIteration_spec {st : ARA} {s0 gl : Nat} (i : SInv st s0 gl) :
    OkOr st.newIteration (fun st' => SInv st' s0 gl ∧ st'.bNew = false ∧ SFrame st st' ∧ st'.eps = st.eps ∧ st'.epsSat = st.epsSat) := by
  unfold newIteration
  split
  next hb =>
    generalize hst : ({ st with iter := st.iter + 1, bNew := false } : ARA) = st1
    have d1 : Data st1 := by
      rw [← hst]
      exact ⟨i.data.bp, i.data.ord, i.data.lrel, i.data.callLe, i.data.staleH, i.data.staleL⟩
    have c1 : Core st1 s0 0 [] := by
      rw [← hst]
      exact ⟨i.core.startAcc, i.core.startG, i.core.gv, i.core.vInf,
        fun s h => Nat.le_succ_of_le (i.core.iterLe s h), i.core.edge, i.core.ptrOk,
        i.core.openLt, i.core.incLt, i.core.ltIn, i.core.disj⟩
    have itl : ∀ s, st1.acc s → st1.iterC s < st1.iter := by
      intro s h; rw [← hst] at h ⊢; exact Nat.lt_succ_of_le (i.core.iterLe s h)
    refine (buildNewOpen_spec d1 c1).imp ?_
    intro st2 p
    have eq := p.eq
    have f12 : SFrame st1 st2 := by
      rw [eq]; exact ⟨rfl, rfl, rfl, rfl, rfl, rfl, rfl, rfl, rfl, fun _ h => h⟩
    have f01 : SFrame st st1 := by
      rw [← hst]; exact ⟨rfl, rfl, rfl, rfl, rfl, rfl, rfl, rfl, rfl, fun _ h => h⟩
    have ac : ∀ s, st2.acc s ↔ st.acc s := by intro s; rw [eq, ← hst]; exact Iff.rfl
    have nc : ∀ s, ¬ st2.closed s := by
      rintro s ⟨h1, h2⟩
      rw [ac] at h1
      have := itl s (by rw [← hst]; exact h1)
      rw [eq] at h2
      have h3 : st1.iterC s = st1.iter := h2
      omega
    have fr := f01.trans f12
    refine ⟨⟨p.data, p.core, by rw [fr.start]; exact i.start, by rw [fr.goal]; exact i.goal, ?_, ?_, ?_, ?_, ?_, ?_, ?_, ?_⟩,
      ?_, fr, ?_, ?_⟩
    · intro s h
      rw [fr.heur, eq, ← hst]; exact i.hok s ((ac s).mp h)
    · apply p.k1; rw [← hst]; exact i.k1
    · rw [eq, ← hst]; exact i.reinit
    · intro h
      apply p.keys
      have : st.bReeval = false := by rw [eq, ← hst] at h; exact h
      rw [← hst]; exact i.keys this
    · intro _
      refine ⟨?_, ?_, fun s h => absurd h (p.empty s)⟩
      · rw [eq, ← hst]; exact Nat.le_add_left 1 _
      · intro s h x
        exact nc s ⟨p.data.openAcc h, x⟩
    · intro e h
      have := i.satAcc e (by rw [eq, ← hst] at h; exact h)
      rw [eq, ← hst]; exact this
    · intro _ E _ s c h; exact absurd h (nc s)
    · intro hc e h E c h1 h2 w
      rw [fr.heur] at hc
      rw [fr.base] at w
      rw [fr.D, fr.base, fr.heur] at h2
      have := i.sat hc e (by rw [eq, ← hst] at h; exact h) E c h1 h2 w
      rw [eq, ← hst]; exact this
    · rw [eq, ← hst]
    · rw [eq, ← hst]
    · rw [eq, ← hst]
  next hb => exact ⟨i, by simpa using hb, SFrame.refl st, rfl, rfl⟩

theorem reeval_inv {st : ARA} {s0 gl : Nat} (i : SInv st s0 gl) (nb : st.bNew = false) :
    SInv st.reevalF s0 gl := by
  obtain ⟨d, k, n⟩ := reevalF_spec i.data i.k1
  have n' : ∀ s, keyOf st.reevalF.heap s ≠ none ↔ keyOf st.heap s ≠ none := fun s => not_congr (n s)
  refine ⟨d, ⟨i.core.startAcc, i.core.startG, i.core.gv, i.core.vInf, i.core.iterLe, i.core.edge, i.core.ptrOk,
      ?_, i.core.incLt, ?_, ?_⟩, i.start, i.goal, i.hok, k.k1, i.reinit, fun _ => k, ?_, i.satAcc, ?_, i.sat⟩
  · intro s h; exact i.core.openLt s ((n' s).mp h)
  · intro s h lt; rw [n']; exact i.core.ltIn s h lt
  · rintro s ⟨h1, h2⟩; exact i.core.disj s ⟨(n' s).mp h1, h2⟩
  · intro _
    have p := i.phase nb
    exact ⟨p.it, fun s h => p.opn s ((n' s).mp h), p.inc⟩
  · intro hb E he; exact i.jj hb E ⟨he.one, he.le⟩

theorem SInv.inv {st : ARA} {s0 gl : Nat} (i : SInv st s0 gl) (nb : st.bNew = false) (nr : st.bReeval = false) :
    Inv st s0 gl 0 [] := ⟨i.data, i.core, i.phase nb, i.goal, i.hok, i.keys nr⟩

structure IterPost (st : ARA) (s0 gl b : Nat) (r : ARA × Nat × List Nat) : Prop where
  inv : SInv r.1 s0 gl
  frame : SFrame st r.1
  accG : r.1.acc gl
  nodup : r.2.2.Nodup
  noGoal : gl ∉ r.2.2
  vLt : ∀ s ∈ r.2.2, r.1.V s < INF
  len : r.2.2.length ≤ b
  fin : r.2.2.length < b → r.2.1 ≠ 2
  retV : r.2.1 = r.1.retCode gl
  epsE : r.1.eps = st.decrease.eps
  noRet : r.2.1 ≠ 1 → r.1.epsSat = st.epsSat
  ret : r.2.1 = 1 → r.1.epsSat = some r.1.eps ∧ r.1.g gl ≠ INFINITECOST
  bnd : st.heur gl gl = 0 → r.2.1 ≠ 2 → ∀ (E : Bnd) c, EpsLe r.1 gl E →
    Walk st.base s0 gl c → E.M * r.1.g gl ≤ E.N * c

theorem searchIter_spec {st : ARA} {s0 gl : Nat} (b : Nat) (i : SInv st s0 gl) (hn : NbrOk st gl) :
    OkOr (st.searchIter b) (IterPost st s0 gl b) := by
  have f0 := decrease_sframe st
  have i0 := decrease_inv i
  have ni := newIteration_spec i0
  unfold searchIter
  cases e : st.decrease.newIteration with
  | error x => rw [e] at ni; exact ni
  | ok st1 =>
    rw [e] at ni
    obtain ⟨i1, nb1, f1, ep1, es1⟩ := ni
    simp only
    generalize hst2 : (if st1.bReeval = true then st1.reevalF else st1) = st2
    have h2 : SInv st2 s0 gl ∧ st2.bNew = false ∧ st2.bReeval = false ∧ SFrame st1 st2 ∧ st2.eps = st1.eps ∧
        st2.epsSat = st1.epsSat := by
      rw [← hst2]
      split
      next hr =>
        exact ⟨reeval_inv i1 nb1, nb1, rfl, ⟨rfl, rfl, rfl, rfl, rfl, rfl, rfl, rfl, rfl, fun _ h => h⟩, rfl, rfl⟩
      next hr => exact ⟨i1, nb1, by simpa using hr, SFrame.refl _, rfl, rfl⟩
    obtain ⟨i2, nb2, nr2, f2, ep2, es2⟩ := h2
    have es0 : st.decrease.epsSat = st.epsSat := by
      rcases decrease_cases st with h | ⟨e, h⟩ <;> rw [h]
    have f02 := (f0.trans f1).trans f2
    have ip := improvePath_spec b (i2.inv nb2 nr2) (hn.sframe f02)
    cases e3 : st2.improvePath b with
    | error x => rw [e3] at ip; exact ip
    | ok r =>
      rw [e3] at ip
      obtain ⟨st3, ret, tr⟩ := r
      have f3 := f02.trans ip.frame.s
      simp only
      have p1 := ip.inv; have pA := ip.accG; have pr := ip.ret; have pf := ip.fin; have pl := ip.len
      have pF := ip.frame; have pj := ip.j
      simp only at p1 pA pr pf pl pF pj f3
      have c2 : st.heur gl gl = 0 → st2.heur gl gl = 0 := by
        rw [f02.heur]; exact fun h => h
      have bnd : st.heur gl gl = 0 → ret ≠ 2 → ∀ (E : Bnd) c, EpsLe st3 gl E →
          Walk st.base s0 gl c → E.M * st3.g gl ≤ E.N * c := by
        intro hc hr E c he w
        rw [← f3.base] at w
        refine exit_bound p1 (pj (i2.jj nb2)) ?_ pA (retCode_exit (by rw [← pr]; exact hr)) he w
        rw [f3.heur]; exact hc
      have i3 : SInv st3 s0 gl := by
        refine ⟨p1.data, p1.core, by rw [pF.start]; exact i2.start, p1.goal, p1.hok, p1.keys.k1,
          by rw [pF.bReinit]; exact i2.reinit, fun _ => p1.keys, fun _ => p1.phase,
          fun e he => ⟨pA, Nat.lt_of_le_of_lt (pF.gLe gl) (i2.satAcc e (by rw [← pF.epsSat]; exact he)).2⟩, ?_, ?_⟩
        · intro _
          exact pj (i2.jj nb2)
        · intro hc e he E c h1 h2 w
          rw [f3.heur] at hc
          rw [pF.epsSat] at he
          rw [pF.D, pF.base, pF.heur] at h2
          rw [pF.base] at w
          exact Nat.le_trans (Nat.mul_le_mul_left E.M (pF.gLe gl)) (i2.sat (c2 hc) e he E c h1 h2 w)
      by_cases hr : ret = 1
      · subst hr
        rw [if_pos rfl]
        refine ⟨?_, ⟨f3.env, f3.fwd, f3.D, f3.start, f3.goal, f3.initEps, f3.finalEps, f3.decEps, f3.first, f3.accM⟩,
          pA, ip.nodup, ip.noGoal, ip.vLt, pl, fun _ => by simp, pr, ?_, fun h => absurd rfl h, fun _ => ⟨rfl, ?_⟩, ?_⟩
        · refine ⟨⟨p1.data.bp, p1.data.ord, p1.data.lrel, p1.data.callLe, p1.data.staleH, p1.data.staleL⟩,
            ⟨p1.core.startAcc, p1.core.startG, p1.core.gv, p1.core.vInf, p1.core.iterLe, p1.core.edge, p1.core.ptrOk,
              p1.core.openLt, p1.core.incLt, p1.core.ltIn, p1.core.disj⟩,
            i3.start, i3.goal, i3.hok, i3.k1, i3.reinit, i3.keys, ?_, fun _ _ => ⟨pA, ?_⟩, ?_, ?_⟩
          · intro _; exact ⟨p1.phase.it, p1.phase.opn, p1.phase.inc⟩
          · show st3.G gl < INF
            have x1 := retCode_one pr.symm
            have x2 := p1.core.GV gl
            rw [G_acc pA] at x2 ⊢
            unfold INF at x2 ⊢
            omega
          · intro hb E he
            exact i3.jj hb E ⟨he.one, he.le⟩
          · intro hc e he E c h1 h2 w
            simp only [Option.some.injEq] at he
            subst he
            have w' : Walk st.base s0 gl c := by rw [← f3.base]; exact w
            have hc' : st3.heur gl gl = 0 := hc
            rw [f3.heur] at hc'
            have := bnd hc' (by simp) E c ⟨h1, h2⟩ w'
            show E.M * st3.G gl ≤ _
            rw [G_acc pA]; exact this
        · show st3.eps = _
          rw [pF.eps, ep2, ep1]
        · exact retCode_one pr.symm
        · intro hc hr E c he w
          exact bnd hc hr E c ⟨he.one, he.le⟩ w
      · rw [if_neg hr]
        refine ⟨i3, f3, pA, ip.nodup, ip.noGoal, ip.vLt, pl, ?_, pr, by show st3.eps = _; rw [pF.eps, ep2, ep1],
          fun _ => by show st3.epsSat = _; rw [pF.epsSat, es2, es1, es0], fun h => absurd h hr, bnd⟩
        intro h
        rw [pr]
        exact exit_retCode (pf h)

/-- ReInitializeSearchStateSpace -/
theorem reinitSpace_spec {st : ARA} {s0 gl : Nat} (d : Data st) (h0 : st.start = some s0) (hg : st.goal = some gl) :
    OkOr st.reinitSpace (fun st' => SInv st' s0 gl ∧ st'.acc gl ∧ st'.env = st.env ∧ st'.fwd = st.fwd ∧
      st'.D = st.D ∧ st'.start = st.start ∧ st'.goal = st.goal ∧ st'.initEps = st.initEps ∧
      st'.finalEps = st.finalEps ∧ st'.decEps = st.decEps ∧ st'.first = st.first) := by
  have e0 : st.reinitSpace = st.reinitFrom s0 gl := by unfold reinitSpace; rw [h0, hg]
  rw [e0]
  unfold reinitFrom
  obtain ⟨m, ⟨r⟩⟩ := d.lrel
  obtain ⟨l', el, ⟨r'⟩⟩ := CList.makeEmptyLoop_rel (st.incons.size + 1) r (by rw [r.size]; omega)
  have el' : st.incons.makeEmpty = .ok l' := el
  rw [el']
  simp only
  obtain ⟨hb, hn, hz, ho, _⟩ := makeEmpty_spec d.bp
  generalize hst1 : ({ st with
        call := st.call + 1, iter := 0, bNew := true, heap := st.heap.makeEmpty, incons := l',
        eps := st.initEps, epsSat := none } : ARA) = st1
  have lE : ∀ s, l'.elem s = none := by
    intro s
    have := r'.elem_isSome s
    simpa using this
  have na1 : ∀ s, ¬ st1.acc s := by
    intro s h
    rw [← hst1] at h
    have := d.callLe s
    simp only [acc] at h; omega
  have d1 : Data st1 := by
    rw [← hst1]
    exact ⟨hb, ho, ⟨_, ⟨r'⟩⟩, fun s => Nat.le_succ_of_le (d.callLe s), fun s _ => hn s, fun s _ => lE s⟩
  have d2 := touch_data d1 s0
  obtain ⟨n1, n2, n3, n4, n5⟩ := touch_self_new d1 (na1 s0)
  have a2 := touch_acc_iff d1 s0
  obtain ⟨hh2, ll2, cc2, it2, ee2, ff2, gg2, ss2⟩ := touch_heap d1 s0
  have fr2 := touch_frame d1 s0
  generalize st1.touch s0 = st2 at *
  generalize hst3 : ({ st2 with g := upd st2.g s0 0 } : ARA) = st3
  have d3 : Data st3 := by
    rw [← hst3]; exact ⟨d2.bp, d2.ord, d2.lrel, d2.callLe, d2.staleH, d2.staleL⟩
  have a3 : ∀ t, st3.acc t ↔ st2.acc t := by intro t; rw [← hst3]; exact Iff.rfl
  have g3 : st3.g s0 = 0 := by rw [← hst3]; simp
  have v3 : st3.v s0 = INF := by rw [← hst3]; exact n2
  have i3 : st3.iterC s0 = 0 := by rw [← hst3]; exact n3
  have goal3 : st3.goal = some gl := by rw [← hst3]; show st2.goal = _; rw [gg2, ← hst1]; exact hg
  have goal1 : st1.goal = some gl := by rw [← hst1]; exact hg
  have hr3 : st3.heur = st.heur := by
    funext x y; simp only [heur]
    rw [← hst3]; show (if st2.fwd = true then st2.env.hGoal x y else st2.env.hStart x y) = _
    rw [ff2, ee2, ← hst1]
  have h3 : st3.h s0 = st.heur gl s0 := by
    rw [← hst3]; show st2.h s0 = _
    rw [n4, goal1]
    rw [← hst1]; rfl
  have a4 := touch_acc_iff d3 gl
  have d4 := touch_data d3 gl
  obtain ⟨hh4, ll4, cc4, it4, ee4, ff4, gg4, ss4⟩ := touch_heap d3 gl
  have fr4 := touch_frame d3 gl
  have acc0 : st3.acc s0 := by rw [a3, a2]; simp
  have s4 : (st3.touch gl).g s0 = 0 ∧ (st3.touch gl).v s0 = INF ∧ (st3.touch gl).iterC s0 = 0 ∧
      (st3.touch gl).h s0 = st.heur gl s0 := by
    by_cases q : s0 = gl
    · subst q; rw [touch_self_acc d3 acc0]; exact ⟨g3, v3, i3, h3⟩
    · obtain ⟨o1, o2, o3, o4, _⟩ := touch_other d3 gl s0 q
      exact ⟨by rw [o1, g3], by rw [o2, v3], by rw [o4, i3], by rw [o3, h3]⟩
  have o4 : gl ≠ s0 → (st3.touch gl).g gl = INF ∧ (st3.touch gl).v gl = INF ∧ (st3.touch gl).iterC gl = 0 ∧
      (st3.touch gl).h gl = st.heur gl gl := by
    intro q
    have na : ¬ st3.acc gl := by rw [a3, a2]; simp [q, na1 gl]
    obtain ⟨m1, m2, m3, m4, _⟩ := touch_self_new d3 na
    refine ⟨m1, m2, m3, ?_⟩
    rw [m4, goal3]; simp only; rw [hr3]
  generalize st3.touch gl = st4 at *
  have ac4 : ∀ t, st4.acc t ↔ t = gl ∨ t = s0 := by
    intro t; rw [a4, a3, a2]; simp [na1 t]
  have heap4 : st4.heap = st.heap.makeEmpty := by
    rw [hh4, ← hst3]; show st2.heap = _; rw [hh2, ← hst1]
  have inc4 : st4.incons = l' := by
    rw [ll4, ← hst3]; show st2.incons = _; rw [ll2, ← hst1]
  have flds : st4.env = st.env ∧ st4.fwd = st.fwd ∧ st4.D = st.D ∧ st4.start = st.start ∧ st4.goal = st.goal ∧
      st4.initEps = st.initEps ∧ st4.finalEps = st.finalEps ∧ st4.decEps = st.decEps ∧ st4.first = st.first ∧
      st4.epsSat = none ∧ st4.bNew = true ∧ st4.iter = 0 := by
    rw [fr4.env, fr4.fwd, fr4.D, fr4.start, fr4.goal, fr4.initEps, fr4.finalEps, fr4.decEps, fr4.first, fr4.epsSat,
      fr4.bNew, fr4.iter, ← hst3]
    simp only
    rw [fr2.env, fr2.fwd, fr2.D, fr2.start, fr2.goal, fr2.initEps, fr2.finalEps, fr2.decEps, fr2.first, fr2.epsSat,
      fr2.bNew, fr2.iter, ← hst1]
    simp
  obtain ⟨k1, k2, k3, k4, k5, k6, k7, k8, k9, k10, k11, k12⟩ := flds
  have gvals : ∀ t, st4.acc t → (t = s0 → st4.g t = 0) ∧ (t ≠ s0 → st4.g t = INF) ∧ st4.v t = INF ∧ st4.iterC t = 0 ∧
      st4.h t = st.heur gl t := by
    intro t h
    by_cases q : t = s0
    · subst q
      exact ⟨fun _ => s4.1, fun x => absurd rfl x, s4.2.1, s4.2.2.1, s4.2.2.2⟩
    · have hg : t = gl := ((ac4 t).mp h).resolve_right q
      subst hg
      obtain ⟨p1, p2, p3, p4⟩ := o4 q
      exact ⟨fun x => absurd x q, fun _ => p1, p2, p3, p4⟩
  have key4 : (⟨(infl st4.D st4.eps (st4.h s0) : Nat), 0⟩ : CKey) = st4.keyFor s0 := by
    simp only [keyFor, s4.1, Nat.zero_add]
  rw [key4]
  have none4 : ∀ t, keyOf st4.heap t = none := by intro t; rw [heap4]; exact hn t
  cases e : st4.heap.insert s0 (st4.keyFor s0) with
  | error x => exact .inl (by rw [heap_insert_err (none4 s0) e])
  | ok h' =>
    obtain ⟨b1, b2, _, b4, _⟩ := insert_spec d4.bp e
    have kO : ∀ t, keyOf h' t ≠ none → t = s0 := by
      intro t h
      rw [b2] at h
      by_contra q
      rw [upd_other _ _ q] at h
      exact h (none4 t)
    have nI : ∀ t, st4.incons.elem t = none := by intro t; rw [inc4]; exact lE t
    refine ⟨⟨⟨b1, b4 d4.ord, d4.lrel, d4.callLe, ?_, d4.staleL⟩,
      ⟨(ac4 s0).mpr (.inr rfl), s4.1, ?_, ?_, ?_, ?_, ?_, ?_, ?_, ?_, ?_⟩, by rw [← h0, ← k4], by rw [← hg, ← k5], ?_, ?_, rfl, ?_, ?_, ?_, ?_, ?_⟩,
      (ac4 gl).mpr (.inl rfl), k1, k2, k3, k4, k5, k6, k7, k8, k9⟩
    · intro t h
      show keyOf h' t = none
      by_contra q
      have := kO t q
      subst this
      exact h ((ac4 t).mpr (.inr rfl))
    · intro t h
      show st4.g t ≤ st4.v t
      obtain ⟨p1, p2, p3, _⟩ := gvals t h
      by_cases q : t = s0
      · rw [p1 q]; omega
      · rw [p2 q, p3]
    · intro t h
      exact Nat.le_of_eq (gvals t h).2.2.1
    · intro t h
      show st4.iterC t ≤ _
      rw [(gvals t h).2.2.2.1]; omega
    · intro u t c _
      right
      have hv : st4.V u = INF := by
        by_cases q : st4.acc u
        · rw [V_acc q]; exact (gvals u q).2.2.1
        · exact V_stale q
      have hgl : st4.G t ≤ INF := by
        by_cases q : st4.acc t
        · rw [G_acc q]
          obtain ⟨p1, p2, _⟩ := gvals t q
          by_cases q : t = s0
          · rw [p1 q]; omega
          · rw [p2 q]
        · rw [G_stale q]
      show st4.G t ≤ st4.V u + c
      omega
    · intro t h lt n0
      have lt' : st4.g t < INF := lt
      rw [(gvals t h).2.1 n0] at lt'
      omega
    · intro t h
      have := kO t h
      subst this
      show st4.g t < st4.v t
      rw [s4.1, s4.2.1]; decide
    · intro t h; exact absurd (nI t) h
    · intro t h lt
      left
      have lt' : st4.g t < st4.v t := lt
      obtain ⟨p1, p2, p3, _⟩ := gvals t h
      have q : t = s0 := by
        by_contra q
        rw [p2 q, p3] at lt'; omega
      subst q
      show keyOf h' t ≠ none
      rw [b2, upd_same]; simp
    · rintro t ⟨_, h2⟩; exact absurd (nI t) h2
    · intro t h
      show st4.h t = _
      rw [(gvals t h).2.2.2.2]
      simp only [heur, k1, k2]
    · intro t k h
      have h' : keyOf h' t = some k := h
      have q := kO t (by rw [h']; simp)
      subst q
      rw [b2, upd_same] at h'
      cases h'; rfl
    · intro _ t k h
      have h' : keyOf h' t = some k := h
      have q := kO t (by rw [h']; simp)
      subst q
      rw [b2, upd_same] at h'
      cases h'; rfl
    · intro x; have : st4.bNew = false := x; rw [k11] at this; cases this
    · intro e x; have : st4.epsSat = some e := x; rw [k10] at this; cases this
    · intro x; have : st4.bNew = false := x; rw [k11] at this; cases this
    · intro _ e x; have : st4.epsSat = some e := x; rw [k10] at this; cases this

end Sbpl.ARA
