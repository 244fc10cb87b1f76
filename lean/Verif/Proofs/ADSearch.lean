import Verif.Proofs.ADLoop
import Verif.Proofs.ARAApi
/-! AD*: new iterations, re-keying, re-initialisation, the Search loop. -/

namespace Sbpl.AD
open GraphSpec ARA Heap

/-- Invariant between passes of the Search loop (and, without `HOk`, between calls). -/
structure PInv (st : ARA) (g : Gr) (gl : Nat) (F : Prop) : Prop where
  m : MInv st none
  gr : IsGr st g gl
  fresh : st.bNew = true → ∀ s, ¬ st.closed s
  v : Idle g F (vals st)
  jn : Jn g (vals st) st.closed
  cv : ∀ s, st.closed s → st.V s < INF
  j : F → J g st.D st.eps (vals st) st.closed
  sat : ∀ e, st.epsSat = some e → st.G gl < INF ∧ Clean g gl (vals st) ∧ (F → Sub g st.D e gl (vals st))

theorem PInv.r {st : ARA} {g : Gr} {gl : Nat} {F : Prop} (i : PInv st g gl F) (hok : HOk st gl) (nb : st.bNew = false)
    (nr : st.bReeval = false) : RInv st g gl F := ⟨⟨i.m, i.gr, hok⟩, i.v, i.jn, i.cv, i.j, i.sat, nb, nr⟩

theorem RInv.p {st : ARA} {g : Gr} {gl : Nat} {F : Prop} (i : RInv st g gl F) : PInv st g gl F :=
  ⟨i.l.m, i.l.gr, (fun h => by rw [i.nb] at h; cases h), i.v, i.jn, i.cv, i.j, i.sat⟩

/-- beginning of a new iteration -/
theorem bump_minv {st : ARA} (m : MInv st none) (e : Nat) (x go : Option Nat) :
    MInv { st with iter := st.iter + 1, bReeval := true, bNew := true, eps := e, epsSat := x, goal := go } none := by
  refine ⟨⟨m.data.bp, m.data.ord, m.data.lrel, m.data.callLe, m.data.staleH, m.data.staleL⟩, m.mem, m.disj,
    Nat.le_add_left 1 _, ?_, ?_, (fun h => by cases h), (fun h => by cases h)⟩
  · intro s h
    have := m.iterLe s (m.data.openAcc h)
    show st.iterC s ≠ st.iter + 1
    omega
  · intro s h
    have := m.iterLe s h
    show st.iterC s ≤ st.iter + 1
    omega

theorem bump_closed {st : ARA} (m : MInv st none) (e : Nat) (x go : Option Nat) (s : Nat) :
    ¬ ({ st with iter := st.iter + 1, bReeval := true, bNew := true, eps := e, epsSat := x, goal := go } : ARA).closed s := by
  rintro ⟨h1, h2⟩
  have h1' : st.acc s := h1
  have h2' : st.iterC s = st.iter + 1 := h2
  have := m.iterLe s h1'
  omega

theorem decrease_cases (st : ARA) : decrease st = st ∨
    (∃ e, decrease st = { st with iter := st.iter + 1, bReeval := true, bNew := true, eps := e, epsSat := st.epsSat, goal := st.goal } ∧
      (e = st.finalEps ∨ (st.finalEps ≤ e ∧ e ≤ st.eps))) := by
  unfold decrease
  split
  · right
    refine ⟨_, rfl, ?_⟩
    split
    · exact .inl rfl
    · right; omega
  · exact .inl rfl

theorem decrease_pinv {st : ARA} {g : Gr} {gl : Nat} {F : Prop} (i : PInv st g gl F) : PInv (decrease st) g gl F := by
  rcases decrease_cases st with h | ⟨e, h, _⟩
  · rw [h]; exact i
  · rw [h]
    have nc := bump_closed i.m e st.epsSat st.goal
    exact ⟨bump_minv i.m e _ _, ⟨i.gr.base, i.gr.rev, i.gr.heur, i.gr.goal, i.gr.start, i.gr.nbr⟩, fun _ => nc,
      i.v, fun x _ _ k hk => absurd hk (nc k), fun s hs => absurd hs (nc s), fun _ _ _ s _ hs => absurd hs (nc s), i.sat⟩

theorem buildLoop_spec (n : Nat) : ∀ {st : ARA} {l : List Nat}, MInv st none → (∀ s, ¬ st.closed s) →
    CList.Rel st.incons l → l.length < n →
    OkOr (buildLoop n st) (fun st' => MInv st' none ∧ HL st st' ∧ ∀ s, ¬ st'.Inc s) := by
  induction n with
  | zero => intro st l _ _ _ h; omega
  | succ n ih =>
    intro st l m nc r hl
    unfold buildLoop
    rw [getFirst_rel r]
    cases l with
    | nil =>
      refine ⟨m, HL.refl _, ?_⟩
      intro s h
      have := (Inc_iff r s).mp h
      cases this
    | cons s l =>
      simp only [List.head?_cons]
      have hs : st.Inc s := (Inc_iff r s).mpr (by simp)
      have nO : keyOf st.heap s = none := by
        by_contra h; exact m.disj s ⟨h, hs⟩
      have as := m.data.incAcc hs
      unfold putOpen
      rw [if_pos (keyOf_none.mp nO)]
      cases e : st.heap.insert s (keyFor st s) with
      | error x => exact .inl (by rw [heap_insert_err nO e])
      | ok h' =>
        obtain ⟨l', e2, _⟩ := CList.remove_rel r s (by simp)
        obtain ⟨⟨r2⟩, hE⟩ := list_remove_ok r (by simp) e2
        simp only [e2]
        obtain ⟨b1, b2, _, b4, _⟩ := insert_spec m.data.bp e
        have iE : ∀ t, ({ st with heap := h', incons := l' } : ARA).Inc t ↔ t ≠ s ∧ st.Inc t := fun t => hE t
        have kE : ∀ t, t ≠ s → keyOf h' t = keyOf st.heap t := by
          intro t q; rw [b2, upd_other _ _ q]
        have kS : keyOf h' s = some (keyFor st s) := by rw [b2, upd_same]
        have m1 : MInv { st with heap := h', incons := l' } none := by
          refine ⟨⟨b1, b4 m.data.ord, ⟨_, ⟨r2⟩⟩, m.data.callLe, ?_, ?_⟩, ?_, ?_, m.it, ?_, m.iterLe, ?_, ?_⟩
          · intro t h
            have q : t ≠ s := by rintro rfl; exact h as
            show keyOf h' t = none
            rw [kE t q]; exact m.data.staleH t h
          · intro t h
            by_contra x
            exact ((hE t).mp x).2 (m.data.staleL t h)
          · intro t _ a
            rw [iE]
            show (keyOf h' t ≠ none ∨ _) ↔ st.v t ≠ st.g t
            have mt := m.mem t (by simp) a
            by_cases q : t = s
            · subst q
              rw [kS]
              have := mt.mp (.inr hs)
              simp [this]
            · rw [kE t q]
              simp only [q, not_false_eq_true, true_and, ne_eq] at mt ⊢
              exact mt
          · rintro t ⟨h1, h2⟩
            rw [iE] at h2
            change keyOf h' t ≠ none at h1
            rw [kE t h2.1] at h1
            exact m.disj t ⟨h1, h2.2⟩
          · intro t h x
            by_cases q : t = s
            · subst q; exact nc t ⟨as, x⟩
            · change keyOf h' t ≠ none at h
              rw [kE t q] at h
              exact m.opn t h x
          · intro nb t _ h
            rw [iE] at h
            exact m.inc nb t (by simp) h.2
          · intro nr t k _ h
            change keyOf h' t = some k at h
            by_cases q : t = s
            · subst q; rw [kS] at h; cases h; rfl
            · rw [kE t q] at h; exact m.keys nr t k (by simp) h
        have rr : CList.Rel l' ((s :: l).erase s) := r2
        rw [List.erase_cons_head] at rr
        refine (ih m1 nc rr (by simp only [List.length_cons] at hl; omega)).imp ?_
        rintro st2 ⟨p1, p2, p3⟩
        refine ⟨p1, ?_, p3⟩
        unfold HL at p2 ⊢
        rw [p2]

/-- the open list is rebuilt if necessary -/
theorem build_spec {st : ARA} {g : Gr} {gl : Nat} {F : Prop} (i : PInv st g gl F) (hok : HOk st gl) :
    OkOr (if st.bNew then buildNewOpen st else .ok st) (fun st' => PInv st' g gl F ∧ HOk st' gl ∧ st'.bNew = false ∧
      st' = { st with heap := st'.heap, incons := st'.incons, bNew := st'.bNew }) := by
  by_cases hb : st.bNew = true
  · rw [if_pos hb]
    unfold buildNewOpen
    obtain ⟨l, ⟨r⟩⟩ := i.m.data.lrel
    have nc := i.fresh hb
    have bs := buildLoop_spec (st.incons.size + 1) i.m nc r (by rw [r.size]; omega)
    cases e : buildLoop (st.incons.size + 1) st with
    | error x => rw [e] at bs; exact bs
    | ok st1 =>
      rw [e] at bs
      obtain ⟨m, hl, ni⟩ := bs
      simp only
      have w : vals { st1 with bNew := false } = vals st := by
        have : vals { st1 with bNew := false } = vals st1 := rfl
        rw [this]; exact hl.vals
      have hc : ∀ s, ¬ ({ st1 with bNew := false } : ARA).closed s := by
        intro s h
        exact nc s ((hl.closed s).mp h)
      have f := hl.fr
      have gr1 : IsGr { st1 with bNew := false } g gl := by
        have := i.gr.fr f
        exact ⟨this.base, this.rev, this.heur, this.goal, this.start, this.nbr⟩
      refine ⟨⟨⟨⟨m.data.bp, m.data.ord, m.data.lrel, m.data.callLe, m.data.staleH, m.data.staleL⟩, m.mem, m.disj, m.it,
        m.opn, m.iterLe, fun _ s _ h => absurd h (ni s), m.keys⟩, gr1, (fun h => by cases h), by rw [w]; exact i.v,
        fun x _ _ k hk => absurd hk (hc k), fun s hs => absurd hs (hc s), fun _ _ _ s _ hs => absurd hs (hc s), ?_⟩,
        ?_, rfl, ?_⟩
      · intro e' he
        have he' : st.epsSat = some e' := by rw [← f.epsSat]; exact he
        have h1 := i.sat e' he'
        have hG : ({ st1 with bNew := false } : ARA).G gl = st.G gl := by
          show (vals { st1 with bNew := false }).G gl = _
          rw [w]; rfl
        rw [hG, w]
        have hD : ({ st1 with bNew := false } : ARA).D = st.D := f.D
        rw [hD]
        exact h1
      · have := hl.hok hok
        exact this
      · unfold HL at hl
        rw [hl]
  · rw [if_neg hb]
    exact ⟨i, hok, by simpa using hb, rfl⟩

theorem rekey_spec (st : ARA) (arr : Nat → HElem CKey) (n : Nat) : ∀ i, rekey st arr n i =
    if 1 ≤ i ∧ i ≤ n then ⟨(arr i).st, keyFor st (arr i).st⟩ else arr i := by
  induction n with
  | zero => intro i; rw [if_neg (by omega)]; rfl
  | succ n ih =>
    intro i
    unfold rekey
    simp only
    by_cases q : i = n + 1
    · subst q
      have e : rekey st arr n (n + 1) = arr (n + 1) := by rw [ih, if_neg (by omega)]
      rw [upd_same, e, if_pos (by omega)]
    · rw [upd_other _ _ q, ih]
      by_cases b : 1 ≤ i ∧ i ≤ n
      · rw [if_pos b, if_pos (by omega)]
      · rw [if_neg b, if_neg (by omega)]

theorem reevalF_spec {st : ARA} (d : Data st) :
    Data (reevalF st) ∧ (∀ s k, keyOf (reevalF st).heap s = some k → k = keyFor st s) ∧
      (∀ s, keyOf (reevalF st).heap s = none ↔ keyOf st.heap s = none) := by
  generalize hh : ({ st.heap with arr := rekey st st.heap.arr st.heap.size } : Heap CKey) = h1
  have a1 : h1.arr = rekey st st.heap.arr st.heap.size := by rw [← hh]
  have a2 : h1.size = st.heap.size := by rw [← hh]
  have a3 : h1.idx = st.heap.idx := by rw [← hh]
  have sts : ∀ i, (h1.arr i).st = (st.heap.arr i).st := by
    intro i; rw [a1, rekey_spec]; split <;> rfl
  have b1 : BP h1 := by
    constructor
    · intro i i1 i2
      rw [sts, a3]; exact d.bp.fwd i i1 (by rw [← a2]; exact i2)
    · intro s hs
      rw [a3] at hs ⊢
      obtain ⟨x, y⟩ := d.bp.bwd s hs
      exact ⟨by rw [a2]; exact x, by rw [sts]; exact y⟩
  obtain ⟨m1, m2, m3⟩ := makeHeap_spec b1
  have hE : (reevalF st).heap = h1.makeHeap := by rw [← hh]; rfl
  have kk : ∀ s, keyOf (reevalF st).heap s = keyOf h1 s := by intro s; rw [hE]; exact m2.key s
  have kn : ∀ s, keyOf (reevalF st).heap s = none ↔ keyOf st.heap s = none := by
    intro s; rw [kk, keyOf_none, keyOf_none, a3]
  refine ⟨⟨by rw [hE]; exact m1, by rw [hE]; exact m3, d.lrel, d.callLe, ?_, d.staleL⟩, ?_, kn⟩
  · intro s h; rw [kn]; exact d.staleH s h
  · intro s k h
    rw [kk] at h
    simp only [keyOf, kat, a3] at h
    split at h
    · cases h
    next ix =>
      cases h
      obtain ⟨x, y⟩ := d.bp.bwd s ix
      rw [a1, rekey_spec, if_pos ⟨by omega, x⟩, y]

theorem reevalF_pinv {st : ARA} {g : Gr} {gl : Nat} {F : Prop} (i : PInv st g gl F) : PInv (reevalF st) g gl F := by
  obtain ⟨d, k, n⟩ := reevalF_spec i.m.data
  have n' : ∀ s, keyOf (reevalF st).heap s ≠ none ↔ keyOf st.heap s ≠ none := fun s => not_congr (n s)
  refine ⟨⟨d, ?_, ?_, i.m.it, ?_, i.m.iterLe, i.m.inc, fun _ s k' _ h => k s k' h⟩,
    ⟨i.gr.base, i.gr.rev, i.gr.heur, i.gr.goal, i.gr.start, i.gr.nbr⟩, i.fresh, i.v, i.jn, i.cv, i.j, i.sat⟩
  · intro s q a
    rw [n']
    exact i.m.mem s q a
  · rintro s ⟨h1, h2⟩
    exact i.m.disj s ⟨(n' s).mp h1, h2⟩
  · intro s h
    exact i.m.opn s ((n' s).mp h)

structure IterPost (st : ARA) (g : Gr) (gl : Nat) (F : Prop) (b : Nat) (r : ARA × Nat × List Nat) : Prop where
  inv : RInv r.1 g gl F
  sf : SFrame st r.1
  accG : r.1.acc gl
  reinit : r.1.bReinit = st.bReinit
  two : ∀ s, r.2.2.count s ≤ 2
  len : r.2.2.length ≤ b
  epsE : r.1.eps = (decrease st).eps
  ret : r.2.1 = 1 → r.1.epsSat = some r.1.eps
  noRet : r.2.1 ≠ 1 → r.1.epsSat = st.epsSat
  fin : r.2.2.length < b → (r.1.G gl = INF ∨ r.2.1 = 1) ∧ (F → Sub g r.1.D r.1.eps gl (vals r.1))

theorem Fr.s {a b : ARA} (x : Fr a b) : SFrame a b :=
  ⟨x.env, x.fwd, x.D, x.start, x.goal, x.initEps, x.finalEps, x.decEps, x.first, x.accM⟩

theorem fin_ret {st : ARA} {g : Gr} {gl : Nat} {F : Prop} (r : RInv st g gl F) (c : Ctx st g gl) (ag : st.acc gl)
    (h : loopCond st gl = false) : st.G gl = INF ∨ retCode st gl = 1 := by
  have gi := r.v.gInf gl
  change st.G gl ≤ INF at gi
  by_cases gI : st.G gl = INF
  · exact .inl gI
  right
  have gn : st.g gl ≠ INFINITECOST := by rw [G_acc ag] at gI; exact gI
  unfold retCode
  rw [if_neg (by intro x; exact gn x.1)]
  by_cases z : st.heap.size = 0
  · have e1 : st.heap.isEmpty = true := by simp [Heap.isEmpty, z]
    rw [if_neg (by simp [e1]), if_neg (by simp [e1])]
  · have e1 : st.heap.isEmpty = false := by simp [Heap.isEmpty, z]
    rw [if_neg, if_neg (by intro x; exact gn x.1)]
    rintro ⟨_, hw⟩
    have nl : ¬ (st.heap.kat 1).k0 < 1000000000 := by
      intro lt
      have : loopCond st gl = true := by
        unfold loopCond
        rw [hw, e1]
        unfold minKey Heap.getMinKey
        rw [if_neg z]
        simpa [kat] using lt
      rw [h] at this; cases this
    unfold wants minKey Heap.getMinKey at hw
    rw [if_neg z] at hw
    simp only [CKey.gtB, Bool.or_eq_true, decide_eq_true_eq, Bool.and_eq_true] at hw
    by_cases gv : st.G gl ≤ st.V gl
    · rw [r.l.keyOver ag gv, c.hg, infl_zero] at hw
      rw [G_acc ag, V_acc ag] at gv
      rw [G_acc ag] at gi gI hw
      simp only [kat] at hw nl
      unfold INF INFINITECOST at gi gI
      omega
    · have lt : st.V gl < st.G gl := by omega
      have ko := r.l.inOpen r.nb r.nr (by omega) (r.jn.notClosed c.qg lt)
      have ml := min_le r.l.m.data.bp r.l.m.data.ord ko
      rw [r.l.keyUnder ag lt, c.hg, CKey.le_def] at ml
      simp only at ml
      unfold INF INFINITECOST at gi
      omega

theorem searchIter_spec {st : ARA} {g : Gr} {gl : Nat} {F : Prop} (b : Nat) (i : PInv (firstIter st) g gl F)
    (hok : HOk st gl) (c : Ctx st g gl) (fe : st.D ≤ st.finalEps) :
    OkOr (searchIter st b) (IterPost (firstIter st) g gl F b) := by
  have hokf : HOk (firstIter st) gl := by
    unfold firstIter; split <;> exact hok
  have cf : Ctx (firstIter st) g gl := by
    unfold firstIter; split
    · exact ⟨c.ok, c.act, c.qg, c.hg, c.dp, c.de⟩
    · exact c
  have fef : (firstIter st).D ≤ (firstIter st).finalEps := by
    unfold firstIter; split <;> exact fe
  generalize hsf : firstIter st = sf at *
  unfold searchIter
  dsimp only
  rw [hsf]
  have i0 := decrease_pinv i
  have hok0 : HOk (decrease sf) gl := by
    rcases decrease_cases sf with h | ⟨e, h, _⟩ <;> rw [h] <;> exact hokf
  have c0 : Ctx (decrease sf) g gl := by
    rcases decrease_cases sf with h | ⟨e, h, h'⟩
    · rw [h]; exact cf
    · rw [h]
      refine ⟨c.ok, c.act, c.qg, c.hg, cf.dp, ?_⟩
      show sf.D ≤ e
      rcases h' with h' | h' <;> omega
  have f0 : SFrame sf (decrease sf) ∧ (decrease sf).bReinit = sf.bReinit ∧ (decrease sf).epsSat = sf.epsSat := by
    rcases decrease_cases sf with h | ⟨e, h, _⟩
    · rw [h]; exact ⟨SFrame.refl _, rfl, rfl⟩
    · rw [h]; exact ⟨⟨rfl, rfl, rfl, rfl, rfl, rfl, rfl, rfl, rfl, fun _ h => h⟩, rfl, rfl⟩
  generalize hs0 : decrease sf = s0 at *
  have bs := build_spec i0 hok0
  cases e : (if s0.bNew = true then buildNewOpen s0 else Except.ok s0 : Except PErr ARA) with
  | error x => rw [e] at bs; exact bs
  | ok st1 =>
    rw [e] at bs
    obtain ⟨i1, hok1, nb1, eq1⟩ := bs
    simp only
    have f1 : SFrame s0 st1 ∧ st1.bReinit = s0.bReinit ∧ st1.epsSat = s0.epsSat ∧ st1.eps = s0.eps := by
      rw [eq1]; exact ⟨⟨rfl, rfl, rfl, rfl, rfl, rfl, rfl, rfl, rfl, fun _ h => h⟩, rfl, rfl, rfl⟩
    have c1 : Ctx st1 g gl := ⟨c.ok, c.act, c.qg, c.hg, by rw [f1.1.D]; exact c0.dp, by rw [f1.1.D, f1.2.2.2]; exact c0.de⟩
    generalize hs2 : (if st1.bReeval = true then reevalF st1 else st1) = st2
    have h2 : PInv st2 g gl F ∧ HOk st2 gl ∧ Ctx st2 g gl ∧ st2.bNew = false ∧ st2.bReeval = false ∧ SFrame st1 st2 ∧
        st2.bReinit = st1.bReinit ∧ st2.epsSat = st1.epsSat ∧ st2.eps = st1.eps := by
      rw [← hs2]
      split
      · exact ⟨reevalF_pinv i1, hok1, ⟨c1.ok, c1.act, c1.qg, c1.hg, c1.dp, c1.de⟩, nb1, rfl,
          ⟨rfl, rfl, rfl, rfl, rfl, rfl, rfl, rfl, rfl, fun _ h => h⟩, rfl, rfl, rfl⟩
      next hr => exact ⟨i1, hok1, c1, nb1, by simpa using hr, SFrame.refl _, rfl, rfl, rfl⟩
    obtain ⟨i2, hok2, c2, nb2, nr2, f2, rr2, es2, ep2⟩ := h2
    have ps := computePath_spec b (i2.r hok2 nb2 nr2) c2
    cases e3 : computePath st2 b with
    | error x => rw [e3] at ps; exact ps
    | ok p =>
      rw [e3] at ps
      obtain ⟨st3, ret, tr⟩ := p
      have ps : PathPost st2 g gl F b (st3, ret, tr) := ps
      simp only
      have f3 := ps.f
      have r3 := ps.r
      have ag3 := ps.ag
      have c3 := c2.fr f3
      simp only at f3 r3 ag3 c3
      have sf3 : SFrame sf st3 := ((f0.1.trans f1.1).trans f2).trans f3.s
      have ri3 : st3.bReinit = sf.bReinit := by rw [f3.bReinit, rr2, f1.2.1, f0.2.1]
      have es3 : st3.epsSat = sf.epsSat := by rw [f3.epsSat, es2, f1.2.2.1, f0.2.2]
      have ep3 : st3.eps = s0.eps := by rw [f3.eps, ep2, f1.2.2.2]
      have sub3 : loopCond st3 gl = false ∨ retCode st3 gl = 1 → F → Sub g st3.D st3.eps gl (vals st3) := by
        intro h hF
        have i' : Idle g True (vals st3) := by
          have := r3.v
          rwa [eq_true hF] at this
        exact sub_intro c3.ok i' (r3.j hF) r3.cv (exit_min r3 c3 ag3 h)
      have fin3 : tr.length < b → (st3.G gl = INF ∨ ret = 1) ∧ (F → Sub g st3.D st3.eps gl (vals st3)) := by
        intro h
        have lc := ps.fin h
        have pr := ps.ret
        simp only at lc pr
        exact ⟨by rw [pr]; exact fin_ret r3 c3 ag3 lc, sub3 (.inl lc)⟩
      by_cases hr : ret = 1
      · rw [if_pos hr]
        have hr' : retCode st3 gl = 1 := by rw [← hr]; exact ps.ret.symm
        obtain ⟨q1, q2⟩ := ret_clean r3 c3 ag3 hr'
        refine ⟨⟨⟨⟨⟨r3.l.m.data.bp, r3.l.m.data.ord, r3.l.m.data.lrel, r3.l.m.data.callLe, r3.l.m.data.staleH,
          r3.l.m.data.staleL⟩, r3.l.m.mem, r3.l.m.disj, r3.l.m.it, r3.l.m.opn, r3.l.m.iterLe, r3.l.m.inc, r3.l.m.keys⟩,
          ⟨r3.l.gr.base, r3.l.gr.rev, r3.l.gr.heur, r3.l.gr.goal, r3.l.gr.start, r3.l.gr.nbr⟩, r3.l.hok⟩, r3.v, r3.jn,
          r3.cv, r3.j, ?_, r3.nb, r3.nr⟩,
          ⟨sf3.env, sf3.fwd, sf3.D, sf3.start, sf3.goal, sf3.initEps, sf3.finalEps, sf3.decEps, sf3.first, sf3.accM⟩, ag3, ri3,
          ps.two, ps.len, ?_, fun _ => rfl, fun h => absurd hr h, fin3⟩
        · intro e' he
          have he : some st3.eps = some e' := he
          cases he
          exact ⟨q1, q2, sub3 (.inr hr')⟩
        · show st3.eps = (decrease sf).eps
          rw [hs0]; exact ep3
      · rw [if_neg hr]
        exact ⟨r3, sf3, ag3, ri3, ps.two, ps.len, by show st3.eps = (decrease sf).eps; rw [hs0]; exact ep3,
          fun h => absurd h hr, fun _ => es3, fin3⟩

theorem firstIter_id {st : ARA} (h : 1 ≤ st.iter) : firstIter st = st := by
  unfold firstIter; rw [if_neg (by omega)]

theorem decrease_mu (st : ARA) (hf : st.first = false) (hd : 1 ≤ st.decEps) (nd : st.notDone = true) :
    mu { st with eps := (decrease st).eps, epsSat := some (decrease st).eps } < mu st := by
  unfold decrease
  split
  next h =>
    simp only [mu, if_true, h.1]
    unfold notDone at nd
    rw [h.1] at nd
    simp only [decide_eq_true_eq] at nd
    split <;> omega
  next h =>
    have : st.epsSat ≠ some st.eps := fun x => h ⟨x, hf⟩
    simp only [mu, if_true, if_neg this]
    omega

theorem notDone_done {st : ARA} (hd : ¬ st.notDone = true) : ∃ e, st.epsSat = some e ∧ e ≤ st.finalEps := by
  unfold notDone at hd
  cases e : st.epsSat with
  | none => rw [e] at hd; simp at hd
  | some x =>
    rw [e] at hd
    simp only [decide_eq_true_eq] at hd
    exact ⟨x, rfl, by omega⟩

theorem searchLoop_nil {gl b : Nat} {bs : List Nat} {st st2 : ARA} (e2 : searchLoop gl (b :: bs) st = .ok (st2, [])) :
    st2 = st ∧ ¬ st.notDone = true := by
  unfold searchLoop at e2
  by_cases nd' : st.notDone = true
  · rw [if_pos nd'] at e2
    exfalso
    revert e2
    cases searchIter st b with
    | error x => intro e2; cases e2
    | ok p =>
      simp only
      split
      · intro e2; cases e2
      · split
        · intro e2; cases e2
        · cases searchLoop gl bs p.1 with
          | error x => intro e2; cases e2
          | ok q => intro e2; cases e2
  · rw [if_neg nd'] at e2; cases e2; exact ⟨rfl, nd'⟩

/-- what Search leaves behind -/
structure SearchPost (st : ARA) (g : Gr) (gl : Nat) (F : Prop) (bs : List Nat) (r : ARA × List (List Nat)) : Prop where
  inv : PInv r.1 g gl F
  hok : HOk r.1 gl
  sf : SFrame st r.1
  reinit : r.1.bReinit = st.bReinit
  two : ∀ tr ∈ r.2, ∀ s, tr.count s ≤ 2
  lens : r.2.length ≤ bs.length
  epsB : ∀ X, st.eps ≤ X → st.finalEps ≤ X → r.1.eps ≤ X
  epsD : r.1.D ≤ r.1.eps
  satD : ∀ e, r.1.epsSat = some e → st.epsSat = some e ∨ (r.1.D ≤ e ∧ ∀ X, st.eps ≤ X → st.finalEps ≤ X → e ≤ X)
  accG : r.1.acc gl ∨ (r.2 = [] ∧ r.1 = st)
  fin : (∀ N, (∀ tr ∈ r.2, tr.length ≤ N) → (∀ b ∈ bs, N < b) → r.2 ≠ [] →
    r.1.epsSat ≠ none ∧ r.1.G gl ≠ INF ∨ (r.1.G gl = INF ∧ (F → Sub g r.1.D r.1.eps gl (vals r.1))))
  live : PlannerSpec.NoTimeout bs r.2 → st.first = false → 1 ≤ st.decEps → mu st ≤ bs.length →
    (∃ e, r.1.epsSat = some e ∧ e ≤ st.finalEps) ∨ r.1.G gl = INF

theorem searchLoop_spec {g : Gr} {gl : Nat} {F : Prop} (bs : List Nat) : ∀ {st : ARA}, PInv (firstIter st) g gl F →
    HOk st gl → Ctx st g gl → st.D ≤ st.finalEps → (bs = [] → 1 ≤ st.iter) →
    (st.epsSat ≠ none → 1 ≤ st.iter) →
    OkOr (searchLoop gl bs st) (SearchPost (firstIter st) g gl F bs) := by
  induction bs with
  | nil =>
    intro st i hok c fe it _
    have e := firstIter_id (it rfl)
    rw [e] at i ⊢
    refine ⟨i, hok, SFrame.refl _, rfl, by simp, by simp, fun _ h _ => h, c.de, fun e h => .inl h, .inr ⟨rfl, rfl⟩,
      fun _ _ _ h => absurd rfl h, ?_⟩
    intro _ _ _ h
    left
    simp only [List.length_nil, Nat.le_zero_eq, mu] at h
    by_cases q : st.epsSat = some st.eps
    · exact ⟨st.eps, q, by omega⟩
    · rw [if_neg q] at h; omega
  | cons b bs ih =>
    intro st i hok c fe _ its
    unfold searchLoop
    by_cases nd : st.notDone = true
    · rw [if_pos nd]
      have si := searchIter_spec b i hok c fe
      cases e : searchIter st b with
      | error x => rw [e] at si; exact si
      | ok p =>
        rw [e] at si
        obtain ⟨st1, ret, tr⟩ := p
        have si : IterPost (firstIter st) g gl F b (st1, ret, tr) := si
        simp only
        have r1 := si.inv
        have sf1 := si.sf
        have ag1 := si.accG
        have ri1 := si.reinit
        have ee1 := si.epsE
        have rt1 := si.ret
        have nr1 := si.noRet
        have fn1 := si.fin
        simp only at r1 sf1 ag1 ri1 ee1 rt1 nr1 fn1
        have eps1 : ∀ X, (firstIter st).eps ≤ X → (firstIter st).finalEps ≤ X → st1.eps ≤ X := by
          intro X h1 h2
          rw [ee1]
          rcases decrease_cases (firstIter st) with h | ⟨e, h, h'⟩
          · rw [h]; exact h1
          · rw [h]; show e ≤ X
            rcases h' with h' | h' <;> omega
        have fe1 : st1.D ≤ st1.finalEps := by
          rw [sf1.D, sf1.finalEps]
          have : (firstIter st).D = st.D ∧ (firstIter st).finalEps = st.finalEps := by
            unfold firstIter; split <;> exact ⟨rfl, rfl⟩
          rw [this.1, this.2]; exact fe
        have de1 : st1.D ≤ st1.eps := by
          rw [ee1, sf1.D]
          have hD : (firstIter st).D = st.D ∧ (firstIter st).finalEps = st.finalEps ∧ (firstIter st).eps = st.eps := by
            unfold firstIter; split <;> exact ⟨rfl, rfl, rfl⟩
          have := c.de
          rcases decrease_cases (firstIter st) with h | ⟨e, h, h'⟩
          · rw [h, hD.1, hD.2.2]; exact this
          · rw [h, hD.1]
            show st.D ≤ e
            rw [hD.2.1] at h'
            rcases h' with h' | h' <;> omega
        have sat1 : ∀ e, st1.epsSat = some e → (firstIter st).epsSat = some e ∨
            (st1.D ≤ e ∧ ∀ X, (firstIter st).eps ≤ X → (firstIter st).finalEps ≤ X → e ≤ X) := by
          intro e he
          by_cases hr : ret = 1
          · rw [rt1 hr] at he; cases he
            exact .inr ⟨de1, eps1⟩
          · rw [nr1 hr] at he; exact .inl he
        -- the loop stops after this pass
        have nt1 : ∀ {trs}, PlannerSpec.NoTimeout (b :: bs) (tr :: trs) → (st1.G gl = INF ∨ ret = 1) ∧
            PlannerSpec.NoTimeout bs trs := by
          rintro trs ⟨N, h1, h2⟩
          have x1 := h1 tr (by simp)
          have x2 := h2 b (by simp)
          exact ⟨(fn1 (by omega)).1, N, fun t ht => h1 t (by simp only [List.mem_cons]; exact .inr ht), fun b hb => h2 b (by simp only [List.mem_cons]; exact .inr hb)⟩
        have stop : (st1.first = true ∨ st1.G gl = INF) → SearchPost (firstIter st) g gl F (b :: bs) (st1, [tr]) := by
          intro hex
          refine ⟨r1.p, r1.l.hok, sf1, ri1, ?_, by simp, eps1, de1, sat1, .inl ag1, ?_, ?_⟩
          · intro t ht s
            simp only [List.mem_singleton] at ht
            subst ht; exact si.two s
          · intro N h1 h2 _
            have h1' := h1 tr (by simp)
            have h2' := h2 b (by simp)
            obtain ⟨x, y⟩ := fn1 (by omega)
            by_cases gI : st1.G gl = INF
            · exact .inr ⟨gI, y⟩
            · refine .inl ⟨?_, gI⟩
              rw [rt1 (x.resolve_left gI)]; simp
          · intro _ hf _ _
            rcases hex with h | h
            · rw [sf1.first, hf] at h; cases h
            · exact .inr h
        by_cases hf : st1.first = true
        · rw [if_pos hf]; exact stop (.inl hf)
        · rw [if_neg hf]
          by_cases hG : st1.g gl = INFINITECOST
          · rw [if_pos hG]; exact stop (.inr (by rw [G_acc ag1]; exact hG))
          · rw [if_neg hG]
            have it1 := r1.l.m.it
            have fi := firstIter_id it1
            have i1 : PInv (firstIter st1) g gl F := by rw [fi]; exact r1.p
            have c1 : Ctx st1 g gl := by
              refine ⟨c.ok, c.act, c.qg, c.hg, ?_, de1⟩
              rw [sf1.D]
              have : (firstIter st).D = st.D := by unfold firstIter; split <;> rfl
              rw [this]; exact c.dp
            have ih' := ih i1 r1.l.hok c1 fe1 (fun _ => it1) (fun _ => it1)
            rw [fi] at ih'
            cases e2 : searchLoop gl bs st1 with
            | error x => rw [e2] at ih'; exact ih'
            | ok p =>
              rw [e2] at ih'
              obtain ⟨st2, trs⟩ := p
              have ih' : SearchPost st1 g gl F bs (st2, trs) := ih'
              simp only
              have sf2 := ih'.sf
              have ag2 := ih'.accG
              have ri2 := ih'.reinit
              simp only at sf2 ag2 ri2
              refine ⟨ih'.inv, ih'.hok, sf1.trans sf2, by show st2.bReinit = _; rw [ri2, ri1], ?_, ?_, ?_, ih'.epsD, ?_, .inl ?_, ?_, ?_⟩
              · intro t ht
                rcases List.mem_cons.mp ht with rfl | ht
                · exact si.two
                · exact ih'.two t ht
              · have := ih'.lens
                simp only [List.length_cons] at this ⊢; omega
              · intro X h1 h2
                exact ih'.epsB X (eps1 X h1 h2) (by rw [sf1.finalEps]; exact h2)
              · intro e he
                rcases ih'.satD e he with h | ⟨h, h'⟩
                · rcases sat1 e h with h | ⟨h, h'⟩
                  · exact .inl h
                  · exact .inr ⟨by show st2.D ≤ e; rw [sf2.D]; exact h, h'⟩
                · exact .inr ⟨h, fun X h1 h2 => h' X (eps1 X h1 h2) (by rw [sf1.finalEps]; exact h2)⟩
              · rcases ag2 with h | ⟨_, h⟩
                · exact h
                · show st2.acc gl; rw [h]; exact ag1
              · intro N h1 h2 _
                by_cases ht : trs = []
                · subst ht
                  have : st2 = st1 := by
                    rcases ag2 with h | ⟨_, h⟩
                    · cases bs with
                      | nil => unfold searchLoop at e2; cases e2; rfl
                      | cons b' bs' => exact (searchLoop_nil e2).1
                    · exact h
                  subst this
                  have h1' := h1 tr (by simp)
                  have h2' := h2 b (by simp)
                  obtain ⟨x, y⟩ := fn1 (by omega)
                  have gI : st2.G gl ≠ INF := by rw [G_acc ag1]; exact hG
                  refine .inl ⟨?_, gI⟩
                  show st2.epsSat ≠ none
                  rw [rt1 (x.resolve_left gI)]; simp
                · exact ih'.fin N (fun t h => h1 t (by simp only [List.mem_cons]; exact .inr h)) (fun t h => h2 t (by simp [h])) ht
              · intro nt hff hdd hmu
                obtain ⟨x1, x2⟩ := nt1 nt
                have gI : st1.G gl ≠ INF := by rw [G_acc ag1]; exact hG
                have hret := rt1 (x1.resolve_left gI)
                have nd' : (firstIter st).notDone = true := by
                  unfold firstIter; split <;> exact nd
                have hm := decrease_mu (firstIter st) hff hdd nd'
                have hmu1 : mu st1 = mu { firstIter st with eps := (decrease (firstIter st)).eps, epsSat := some (decrease (firstIter st)).eps } := by
                  simp only [mu, hret, if_true, sf1.finalEps, ee1]
                have hm' : mu st1 < mu (firstIter st) := by rw [hmu1]; exact hm
                rw [← sf1.finalEps]
                refine ih'.live x2 (by rw [sf1.first]; exact hff) (by rw [sf1.decEps]; exact hdd) ?_
                simp only [List.length_cons] at hmu
                omega
    · rw [if_neg nd]
      have hs : st.epsSat ≠ none := by
        intro h; apply nd; unfold notDone; rw [h]
      have e := firstIter_id (its hs)
      rw [e] at i ⊢
      exact ⟨i, hok, SFrame.refl _, rfl, by simp, by simp, fun _ h _ => h, c.de, fun e h => .inl h, .inr ⟨rfl, rfl⟩,
        fun _ _ _ h => absurd rfl h, fun _ _ _ _ => .inl (notDone_done nd)⟩

end Sbpl.AD
