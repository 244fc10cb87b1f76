import Verif.Proofs.LazyARAOps
/-! Lazy ARA*: GetState, EvaluateState, ExpandState, one turn of the ImprovePath loop. -/

namespace Sbpl.LazyARA
open LazySpec Heap

variable {wf : (LazyElem → Nat) → List LazyElem → Prop}

/-- additional edges -/
def plus (P R : Rel) : Rel := fun u t c => P u t c ∨ R u t c

/-! ### GetState -/

structure GetPost (wf : (LazyElem → Nat) → List LazyElem → Prop) (st : LazyARA) (s0 gl s : Nat) (st' : LazyARA) : Prop where
  sound : Sound st' s0
  hinv : ∀ x, HInv st gl x → HInv st' gl x
  step : Step st st'
  acc : st'.acc s
  opt : ∀ pend, Opt wf st s0 pend → Opt wf st' s0 pend

theorem get_spec {st : LazyARA} {s0 gl : Nat} (q : QueueOk st.Q wf) (sd : Sound st s0) (hi : ∃ x, HInv st gl x) (s : Nat) :
    GetPost wf st s0 gl s (st.getState s) := by
  unfold getState
  split
  next na =>
    have na : ¬ st.acc s := na
    have ne : ∀ u, st.acc u → u ≠ s := by rintro u h rfl; exact na h
    generalize hd : (if st.fwd then st.env.hGoal s else st.env.hStart s) = hv
    have hidx : upd st.heap.idx s 0 = st.heap.idx := by
      obtain ⟨x, hi⟩ := hi
      have := ARA.keyOf_none.mp (hi.staleH s na)
      funext u; unfold upd; split
      · next q => rw [q, this]
      · rfl
    have hheap : ({ st.heap with idx := upd st.heap.idx s 0 } : Heap CKey) = st.heap := by rw [hidx]
    have accE : ∀ u, (st.initState s hv).acc u ↔ st.acc u ∨ u = s := by
      intro u
      show upd st.rn s st.num u = st.num ↔ st.rn u = st.num ∨ u = s
      by_cases q : u = s
      · subst q; simp
      · rw [upd_other _ _ q]; simp [q]
    have vo : ∀ u, u ≠ s → (st.initState s hv).v u = st.v u := fun u h => upd_other _ _ h
    have go : ∀ u, u ≠ s → (st.initState s hv).g u = st.g u := fun u h => upd_other _ _ h
    have po : ∀ u, u ≠ s → (st.initState s hv).par u = st.par u := fun u h => upd_other _ _ h
    have eo : ∀ u, u ≠ s → (st.initState s hv).epar u = st.epar u := fun u h => upd_other _ _ h
    have tO : ∀ u, u ≠ s → (st.initState s hv).isTrue u = st.isTrue u := fun u h => upd_other _ _ h
    have lo : ∀ u, u ≠ s → (st.initState s hv).lazy u = st.lazy u := fun u h => upd_other _ _ h
    have io : ∀ u, u ≠ s → (st.initState s hv).iterC u = st.iterC u := fun u h => upd_other _ _ h
    have ho : ∀ u, u ≠ s → (st.initState s hv).h u = st.h u := fun u h => upd_other _ _ h
    have fo : ∀ u, u ≠ s → (st.initState s hv).inInc u = st.inInc u := fun u h => upd_other _ _ h
    have vs : (st.initState s hv).v s = INF := upd_same _ _ _
    have gs : (st.initState s hv).g s = INF := upd_same _ _ _
    have ts : (st.initState s hv).isTrue s = true := upd_same _ _ _
    have ls : (st.initState s hv).lazy s = [] := upd_same _ _ _
    have is : (st.initState s hv).iterC s = SHORT - 1 := upd_same _ _ _
    have hs : (st.initState s hv).h s = hv := upd_same _ _ _
    have fs : (st.initState s hv).inInc s = false := upd_same _ _ _
    have nb : (st.initState s hv).nbr = st.nbr := rfl
    have tc : (st.initState s hv).trueCost = st.trueCost := rfl
    have EE : (st.initState s hv).E = st.E := rfl
    have hp : (st.initState s hv).heap = st.heap := hheap
    have inE : (st.initState s hv).incons = st.incons := rfl
    have itE : (st.initState s hv).iter = st.iter := rfl
    have n0 := ne s0 sd.startAcc
    generalize hst : st.initState s hv = st' at *
    have fr : Fr st st' := by
      rw [← hst]
      refine ⟨rfl, rfl, rfl, rfl, rfl, rfl, rfl, rfl, rfl, rfl, rfl, rfl, rfl, rfl, ?_, ?_, ?_⟩
      · intro u h; rw [hst]; exact (accE u).mpr (.inl h)
      · intro u h; rw [hst]; exact ho u (ne u h)
      · intro u
        show upd st.rn s st.num u = st.rn u ∨ upd st.rn s st.num u = st.num
        by_cases q : u = s
        · right; rw [q, upd_same]
        · left; rw [upd_other _ _ q]
    have old : ∀ u, st'.acc u → u ≠ s → st.acc u := fun u h q => ((accE u).mp h).resolve_right q
    have val : ∀ u e, st.acc u → e ∈ st.lazy u → st'.val e = st.val e := by
      intro u e hu he
      show st'.v e.par + e.cost = st.v e.par + e.cost
      rw [vo _ (ne _ (sd.elem u hu e he).acc)]
    refine ⟨⟨?_, ?_, ?_, ?_, ?_, ?_, ?_, ?_, ?_, ?_, ?_⟩, ?_, ⟨fr, ?_, ?_, ?_, ?_⟩, (accE s).mpr (.inr rfl), ?_⟩
    · exact fr.accM _ sd.startAcc
    · rw [go _ n0]; exact sd.startG
    · rw [tO _ n0]; exact sd.startT
    · rw [vo _ n0]; exact sd.startV
    · intro u h
      by_cases q : u = s
      · rw [q, vs]
      · rw [vo _ q]; exact sd.vInf u (old u h q)
    · intro u h
      by_cases q : u = s
      · rw [q, gs]; exact .inr (.inr rfl)
      · rw [vo _ q, go _ q]; exact sd.gCase u (old u h q)
    · intro u h hf
      by_cases q : u = s
      · rw [q, ts] at hf; cases hf
      · rw [tO _ q] at hf
        obtain ⟨a1, p, lc, a2, a3, a4, a5⟩ := sd.untrue u (old u h q) hf
        rw [vo _ q, go _ q, po _ q]
        exact ⟨a1, p, lc, a2, fr.accM _ a3, by rw [nb]; exact a4, by rw [vo _ (ne _ a3)]; exact a5⟩
    · intro u h hf lt hn
      by_cases q : u = s
      · rw [q, gs] at lt; omega
      · rw [tO _ q] at hf; rw [go _ q] at lt
        obtain ⟨p, c, a2, a3, a4, a5⟩ := sd.truth u (old u h q) hf lt hn
        rw [go _ q, po _ q]
        exact ⟨p, c, a2, fr.accM _ a3, by rw [EE]; exact a4, by rw [vo _ (ne _ a3)]; exact a5⟩
    · intro u h e he
      by_cases q : u = s
      · rw [q, ls] at he; cases he
      · rw [lo _ q] at he
        have ou := old u h q
        have x := sd.elem u ou e he
        exact ⟨fr.accM _ x.acc, x.pos, by rw [val u e ou he, vo _ q]; exact x.lt, by rw [EE]; exact x.tru, by rw [nb]; exact x.lzy⟩
    · intro u h hf
      by_cases q : u = s
      · rw [q, ls]
      · rw [tO _ q] at hf; rw [lo _ q]; exact sd.clear u (old u h q) hf
    · intro u h lt hn
      by_cases q : u = s
      · rw [q, vs] at lt; omega
      · rw [vo _ q] at lt
        obtain ⟨p, c, a2, a3, a4, a5⟩ := sd.vPtr u (old u h q) lt hn
        rw [eo _ q, vo _ q]
        exact ⟨p, c, a2, fr.accM _ a3, by rw [EE]; exact a4, by rw [vo _ (ne _ a3)]; exact a5⟩
    · intro x i
      have kn : ∀ u, keyOf st.heap u ≠ none → st.acc u := fun u h => i.openAcc h
      refine ⟨by rw [hp]; exact i.bp, by rw [hp]; exact i.ord, ?_, ?_, ?_, ?_, ?_, ?_, ?_, ?_, ?_, ?_, ?_, ?_⟩
      · intro u h; rw [hp]; exact i.staleH u (fun c => h (fr.accM _ c))
      · intro u h; rw [inE] at h; exact fr.accM _ (i.incAcc u h)
      · rw [inE]; exact i.incNodup
      · intro u h
        rw [inE]
        by_cases q : u = s
        · rw [q, fs]
          constructor
          · intro h; cases h
          · intro h; exact absurd (i.incAcc s h) na
        · rw [fo _ q]; exact i.incFlag u (old u h q)
      · intro u k hx hk
        rw [hp] at hk
        have au := kn u (by rw [hk]; simp)
        have : st'.keyFor u = st.keyFor u := by
          unfold keyFor
          rw [go _ (ne u au), ho _ (ne u au), fr.D, fr.eps]
        rw [this]; exact i.keys u k hx hk
      · intro u hk
        rw [hp] at hk
        have au := kn u hk
        rw [go _ (ne u au), vo _ (ne u au)]; exact i.openLt u hk
      · intro u h
        rw [inE] at h
        have au := i.incAcc u h
        rw [go _ (ne u au), vo _ (ne u au)]; exact i.incLt u h
      · intro u hx h lt
        by_cases q : u = s
        · rw [q, gs, vs] at lt; omega
        · rw [go _ q, vo _ q] at lt
          rw [hp, inE]; exact i.ltIn u hx (old u h q) lt
      · intro u hk
        rw [hp] at hk
        rw [io _ (ne u (kn u hk)), itE]; exact i.opn u hk
      · intro u h
        rw [inE] at h
        rw [io _ (ne u (i.incAcc u h)), itE]; exact i.inc u h
      · intro u h
        by_cases q : u = s
        · rw [q, is]; exact .inr rfl
        · rw [io _ q, itE]; exact i.iterLe u (old u h q)
      · rw [itE]; exact i.iterLt
    · intro u h; exact vo u (ne u h)
    · intro u h; exact io u (ne u h)
    · intro u h; exact eo u (ne u h)
    · intro u h1 h2
      have q : u = s := ((accE u).mp h2).resolve_left h1
      rw [q]; exact ⟨vs, is, by rw [hs, ← hd]; rfl⟩
    · intro pend o
      refine ⟨?_, ?_, ?_, ?_, ?_, ?_, ?_⟩
      · intro u t c hu lt ee
        have qu : u ≠ s := by rintro rfl; rw [vs] at lt; omega
        rw [vo _ qu] at lt
        rw [EE] at ee
        rcases o.rep u t c (old u hu qu) lt ee with h | ⟨at', h⟩
        · exact .inl h
        · have qt := ne t at'
          refine .inr ⟨fr.accM _ at', ?_⟩
          rw [vo _ qt, vo _ qu, tO _ qt, go _ qt, po _ qt, lo _ qt, tc]
          rcases h with h | h | h | ⟨h, e, he, h'⟩
          · exact .inl h
          · exact .inr (.inl h)
          · exact .inr (.inr (.inl h))
          · exact .inr (.inr (.inr ⟨h, e, he, by rw [val t e at' he]; exact h'.1, h'.2⟩))
      · intro u h hf e he
        by_cases q : u = s
        · rw [q, ls] at he; cases he
        · rw [lo _ q] at he; rw [tO _ q] at hf
          rw [go _ q, val u e (old u h q) he]; exact o.ord u (old u h q) hf e he
      · intro u h
        by_cases qq : u = s
        · rw [qq, ls]; exact q.nil _
        · rw [lo _ qq]
          exact q.congr _ _ _ (fun e he => (val u e (old u h qq) he).symm) (o.wfq u (old u h qq))
      · intro u p h hf hpar hpos
        by_cases q : u = s
        · rw [q, ts] at hf; cases hf
        · rw [tO _ q] at hf; rw [po _ q] at hpar; rw [tc] at hpos
          have ap : st.acc p := by
            obtain ⟨_, p', lc, a2, a3, _⟩ := sd.untrue u (old u h q) hf
            rw [hpar] at a2; cases a2; exact a3
          rw [go _ q, tc, vo _ (ne p ap)]
          exact o.under u p (old u h q) hf hpar hpos
      · intro u h e he hf hpos
        by_cases q : u = s
        · rw [q, ls] at he; cases he
        · rw [lo _ q] at he; rw [tc] at hpos ⊢
          exact o.elemUnder u (old u h q) e he hf hpos
      · rcases o.once with h | h
        · left
          intro u hu lt
          by_cases q : u = s
          · rw [q, vs] at lt; omega
          · rw [vo _ q] at lt; rw [io _ q, itE]; exact h u (old u hu q) lt
        · right; intro p t c f hm; rw [nb] at hm; exact h p t c f hm
      · intro u hu lt
        by_cases q : u = s
        · rw [q, vs] at lt; omega
        · rw [vo _ q] at lt; rw [vo _ n0]; exact o.root u (old u hu q) lt
  next na =>
    have na : st.acc s := Classical.not_not.mp na
    exact ⟨sd, fun _ h => h, Step.refl st, na, fun _ h => h⟩

/-! ### EvaluateState -/

structure EvalPost (wf : (LazyElem → Nat) → List LazyElem → Prop) (st : LazyARA) (s0 gl : Nat) (pend pend' : Rel) (st' : LazyARA) : Prop where
  sound : Sound st' s0
  hinv : HInv st' gl none
  step : Step st st'
  opt : Low st → Opt wf st s0 pend → Opt wf st' s0 pend'

theorem next_spec {st : LazyARA} {s0 gl s p : Nat} (P : Rel) (q : QueueOk st.Q wf) (sd : Sound st s0) (hi : HInv st gl (some s))
    (as : st.acc s) (nh : keyOf st.heap s = none) (ni : st.iterC s ≠ st.iter) (hf : st.isTrue s = false) (hp : st.par s = some p) :
    OkOr (st.nextLazy s) (EvalPost wf st s0 gl P (plus P (fun u t c => u = p ∧ t = s ∧ st.trueCost p s = (c : Int)))) := by
  have n0 : s ≠ s0 := by rintro rfl; rw [sd.startT] at hf; cases hf
  have nI : s ∉ st.incons := fun h => ni (hi.inc s h)
  unfold nextLazy
  cases hq : st.Q.pop st.val (st.lazy s) with
  | none =>
    have hl : st.lazy s = [] := (q.popNone _ _).mp hq
    have eq : ({ st with g := upd st.g s INFINITECOST, par := upd st.par s none, isTrue := upd st.isTrue s true } : LazyARA) =
        st.setS s INF none true [] := by
      have u1 : upd st.lazy s [] = st.lazy := by funext u; unfold upd; split <;> simp_all
      unfold setS; rw [u1]
    simp only
    rw [eq]
    refine ⟨sound_setS sd n0 (.inr ⟨rfl, rfl⟩) (fun h => by cases h) (fun _ h => absurd h (by omega)) (fun e he => by cases he) (fun _ => rfl),
      ?_, setS_step _ _ _ _ _ _, ?_⟩
    · have nn : ∀ u, keyOf st.heap u ≠ none → u ≠ s := by rintro u h rfl; exact h nh
      have ns : ∀ u : Nat, u ≠ s → some u ≠ some s := fun u h c => h (Option.some.inj c)
      have go : ∀ u, u ≠ s → (st.setS s INF none true []).g u = st.g u := fun u h => upd_other _ _ h
      refine ⟨hi.bp, hi.ord, hi.staleH, hi.incAcc, hi.incNodup, hi.incFlag, ?_, ?_, ?_, ?_, hi.opn, hi.inc, hi.iterLe, hi.iterLt⟩
      · intro u k _ hk
        have qu := nn u (by show keyOf st.heap u ≠ none; rw [show keyOf st.heap u = some k from hk]; simp)
        rw [keyFor_setS qu]; exact hi.keys u k (ns u qu) hk
      · intro u hk
        have qu := nn u hk
        rw [go u qu]; exact hi.openLt u hk
      · intro u hu
        have qu : u ≠ s := by rintro rfl; exact nI hu
        rw [go u qu]; exact hi.incLt u hu
      · intro u _ hu lt
        by_cases qu : u = s
        · subst qu
          have lt : upd st.g u INF u < st.v u := lt
          rw [upd_same] at lt
          have := sd.vInf u as
          omega
        · rw [go u qu] at lt; exact hi.ltIn u (ns u qu) hu lt
    · intro low o
      refine opt_setS o (fun u t c _ h => .inl h) ?_ (fun h => by cases h) (q.nil _) (fun _ h => by cases h) (fun e he => by cases he)
      intro u c hu lt ee h
      rcases h with h | ⟨_, h | h | h | ⟨h, e, he, h'⟩⟩
      · exact .inl (.inl h)
      · exact .inr ⟨as, .inl h⟩
      · rw [hf] at h; exact absurd h.1 (by simp)
      · rw [hp] at h
        have := Option.some.inj h.2.1
        subst this
        exact .inl (.inr ⟨rfl, rfl, h.2.2⟩)
      · rw [hl] at he; cases he
  | some r =>
    obtain ⟨e, r⟩ := r
    have mem := q.popMem _ _ _ _ hq
    have em : e ∈ st.lazy s := (mem e).mpr (.inl rfl)
    have rm : ∀ x ∈ r, x ∈ st.lazy s := fun x hx => (mem x).mpr (.inr hx)
    have ek := sd.elem s as e em
    have lt1 : st.v e.par + e.cost < st.v s := ek.lt
    simp only
    have eq : ({ st with
        g := upd st.g s (st.v e.par + e.cost)
        par := upd st.par s (some e.par)
        isTrue := upd st.isTrue s e.isTrue
        lazy := upd st.lazy s (if e.isTrue = true then [] else r) } : LazyARA) =
        st.setS s (st.v e.par + e.cost) (some e.par) e.isTrue (if e.isTrue = true then [] else r) := rfl
    rw [eq]
    have lm : ∀ x ∈ (if e.isTrue = true then [] else r), x ∈ r := by
      intro x hx
      split at hx
      · cases hx
      · exact hx
    have s1 := sound_setS (g' := st.v e.par + e.cost) (p' := some e.par) (t' := e.isTrue) (l' := if e.isTrue = true then [] else r) sd n0 (.inl lt1)
      (fun h => by obtain ⟨lc, hl⟩ := ek.lzy h; exact ⟨e.par, lc, rfl, ek.acc, hl, by have := ek.pos; omega⟩)
      (fun h _ => by obtain ⟨c, h1, h2⟩ := ek.tru h; exact ⟨e.par, c, rfl, ek.acc, h2, by omega⟩)
      (fun x hx => sd.elem s as x (rm x (lm x hx))) (fun h => by rw [if_pos h])
    have h1 := hinv_setS (g' := st.v e.par + e.cost) (p' := some e.par) (t' := e.isTrue) (l' := if e.isTrue = true then [] else r) hi (.inr rfl) lt1
    refine (put_spec h1 as (by show upd st.g s _ s < st.v s; rw [upd_same]; exact lt1)).imp ?_
    rintro st' ⟨a, b⟩
    refine ⟨b.sound s1, a, (setS_step _ _ _ _ _ _).trans b.step, ?_⟩
    intro low o
    apply b.opt
    have mn := q.popMin _ _ _ _ (o.wfq s as) hq
    refine opt_setS o (fun u t c _ h => .inl h) ?_ ?_ ?_ ?_ ?_
    · intro u c hu lt ee h
      have sg : (st.setS s (st.v e.par + e.cost) (some e.par) e.isTrue (if e.isTrue = true then [] else r)).g s = st.val e := upd_same _ _ _
      have stt : (st.setS s (st.v e.par + e.cost) (some e.par) e.isTrue (if e.isTrue = true then [] else r)).isTrue s = e.isTrue := upd_same _ _ _
      have sp : (st.setS s (st.v e.par + e.cost) (some e.par) e.isTrue (if e.isTrue = true then [] else r)).par s = some e.par := upd_same _ _ _
      have sl : (st.setS s (st.v e.par + e.cost) (some e.par) e.isTrue (if e.isTrue = true then [] else r)).lazy s = (if e.isTrue = true then [] else r) :=
        upd_same _ _ _
      rcases h with h | ⟨_, h | h | h | ⟨h, x, hx, h'⟩⟩
      · exact .inl (.inl h)
      · exact .inr ⟨as, .inl h⟩
      · rw [hf] at h; exact absurd h.1 (by simp)
      · rw [hp] at h
        have := Option.some.inj h.2.1
        subst this
        exact .inl (.inr ⟨rfl, rfl, h.2.2⟩)
      · right
        cases ht : e.isTrue with
        | true =>
          rw [ht] at sg stt
          refine ⟨as, .inr (.inl ⟨stt, ?_⟩)⟩
          rw [sg]
          have := mn x hx
          show _ ≤ st.v u + c
          omega
        | false =>
          rw [ht] at sg stt sp sl
          rcases (mem x).mp hx with rfl | hr
          · refine ⟨as, .inr (.inr (.inl ⟨stt, ?_⟩))⟩
            rcases h'.2 with h2 | h2
            · rw [ht] at h2; cases h2
            · rw [sp, h2.1]; exact ⟨rfl, h2.2⟩
          · exact ⟨as, .inr (.inr (.inr ⟨stt, x, by rw [sl]; simpa using hr, h'⟩))⟩
    · intro ht x hx
      exact mn x (rm x (lm x hx))
    · split
      · exact q.nil _
      · exact q.popWf _ _ _ _ (o.wfq s as) hq
    · intro p' ht hp' hpos
      cases hp'
      have := o.elemUnder s as e em ht hpos
      omega
    · intro x hx hf' hpos
      exact o.elemUnder s as x (rm x (lm x hx)) hf' hpos

theorem evaluate_spec {st : LazyARA} {s0 gl s : Nat} (P : Rel) (q : QueueOk st.Q wf) (pos : ∀ p s c, st.E p s c → 1 ≤ c) (sd : Sound st s0)
    (hi : HInv st gl (some s)) (as : st.acc s) (nh : keyOf st.heap s = none) (ni : st.iterC s ≠ st.iter) (hf : st.isTrue s = false) :
    OkOr (st.evaluate s) (EvalPost wf st s0 gl P P) := by
  obtain ⟨_, p, lc, hp, ap, hl, _⟩ := sd.untrue s as hf
  unfold evaluate
  rw [hp]
  have ns := next_spec P q sd hi as nh ni hf hp
  simp only
  cases e : st.nextLazy s with
  | error x => rw [e] at ns; exact ns
  | ok st1 =>
    rw [e] at ns
    have ns : EvalPost wf st s0 gl P _ st1 := ns
    show OkOr (if st1.trueCost p s > 0 then _ else _) _
    have tc := ns.step.toFr.tc
    split
    next hpos =>
      have E1 : st1.E p s (st1.trueCost p s).toNat := by
        rw [ns.step.toFr.E]
        refine .inr ⟨lc, hl, ?_, ?_⟩
        · rw [tc] at hpos ⊢; omega
        · omega
      have is := insert_spec (cost := (st1.trueCost p s).toNat) (tr := true) (by rw [ns.step.Q]; exact q) (by rw [ns.step.toFr.E]; exact pos)
        ns.sound ns.hinv (ns.step.accM s as) (ns.step.accM p ap) (by omega) (fun _ => E1) (fun h => by cases h)
      refine OkOr.imp is ?_
      intro st' ip
      refine ⟨ip.sound, ip.hinv, ns.step.trans ip.step, ?_⟩
      intro low o
      refine ip.opt _ _ (ns.opt low o) (fun h => by cases h) ?_
      rintro u t c (h | ⟨rfl, rfl, h⟩)
      · exact .inl h
      refine .inr ⟨rfl, rfl, .inl ⟨rfl, ?_⟩⟩
      rw [tc]; omega
    next hpos =>
      refine ⟨ns.sound, ns.hinv, ns.step, ?_⟩
      intro low o
      have o1 := ns.opt low o
      refine ⟨?_, o1.ord, o1.wfq, o1.under, o1.elemUnder, o1.once, o1.root⟩
      intro u t c hu lt ee
      rcases o1.rep u t c hu lt ee with (h | ⟨rfl, rfl, h⟩) | h
      · exact .inl h
      · rw [tc] at hpos
        have := pos _ _ _ (by rw [ns.step.toFr.E] at ee; exact ee)
        omega
      · exact .inr h

/-! ### ExpandState -/

/-- the edges out of `x` still to be processed -/
def todo (st : LazyARA) (x : Nat) (es : List (Nat × Nat × Bool)) : Rel := fun u t c =>
  u = x ∧ ((t, c, true) ∈ es ∨ ∃ lc, (t, lc, false) ∈ es ∧ st.trueCost x t = (c : Int) ∧ 0 < c)

theorem expandLoop_spec {s0 gl x : Nat} (P : Rel) (es : List (Nat × Nat × Bool)) : ∀ {st : LazyARA} (_ : QueueOk st.Q wf)
    (_ : ∀ p s c f, (s, c, f) ∈ st.nbr p → 1 ≤ c) (_ : Sound st s0) (_ : HInv st gl none) (_ : st.acc x) (_ : ∀ e ∈ es, e ∈ st.nbr x),
    OkOr (expandLoop x es st) (EvalPost wf st s0 gl (plus P (todo st x es)) P) := by
  induction es with
  | nil =>
    intro st q pos sd hi ax sub
    refine ⟨sd, hi, Step.refl st, ?_⟩
    intro _ o
    refine ⟨?_, o.ord, o.wfq, o.under, o.elemUnder, o.once, o.root⟩
    intro u t c hu lt ee
    rcases o.rep u t c hu lt ee with (h | ⟨_, h | ⟨_, h, _⟩⟩) | h
    · exact .inl h
    · cases h
    · cases h
    · exact .inr h
  | cons e es ih =>
    intro st q pos sd hi ax sub
    obtain ⟨t, c, tr⟩ := e
    unfold expandLoop
    have gp := get_spec q sd ⟨none, hi⟩ t (gl := gl)
    generalize st.getState t = st1 at gp
    have nb := gp.step.toFr.nbr
    have hm : (t, c, tr) ∈ st.nbr x := sub _ List.mem_cons_self
    have q1 : QueueOk st1.Q wf := by rw [gp.step.Q]; exact q
    have pos1 : ∀ p s c f, (s, c, f) ∈ st1.nbr p → 1 ≤ c := by rw [nb]; exact pos
    have posE : ∀ p s c, st1.E p s c → 1 ≤ c := by
      intro p s c h
      rcases h with h | ⟨lc, _, _, h⟩
      · exact pos1 _ _ _ _ h
      · exact h
    have is := insert_spec (s := t) (p := x) (cost := c) (tr := tr) q1 posE gp.sound (gp.hinv _ hi) gp.acc (gp.step.accM x ax) (pos _ _ _ _ hm)
      (fun h => .inl (by rw [nb, ← h]; exact hm)) (fun h => by rw [nb, ← h]; exact hm)
    cases e1 : st1.insertLazy t x c tr with
    | error y => rw [e1] at is; exact is
    | ok st2 =>
      rw [e1] at is
      simp only [OkOr] at is
      have s12 := gp.step.trans is.step
      have nb2 := s12.toFr.nbr
      refine OkOr.imp (ih (st := st2) (by rw [s12.Q]; exact q) (by rw [nb2]; exact pos) is.sound is.hinv (s12.accM x ax)
        (by rw [nb2]; exact fun e he => sub e (List.mem_cons_of_mem _ he))) ?_
      intro st3 ep
      refine ⟨ep.sound, ep.hinv, s12.trans ep.step, ?_⟩
      intro low o
      refine ep.opt (by unfold Low; rw [nb2, s12.toFr.tc]; exact low) (is.opt _ _ (gp.opt _ o) ?_ ?_)
      · intro h hp
        rw [gp.step.toFr.tc] at hp ⊢
        exact low x t c (by rw [← h]; exact hm) hp
      · rintro u t' c' (h | ⟨rfl, h⟩)
        · exact .inl (.inl h)
        rw [gp.step.toFr.tc]
        show plus P (todo st2 u es) u t' c' ∨ _
        unfold plus todo
        rw [s12.toFr.tc]
        rcases h with h | ⟨lc, h, h'⟩
        · rcases List.mem_cons.mp h with h | h
          · simp only [Prod.mk.injEq] at h
            obtain ⟨rfl, rfl, rfl⟩ := h
            exact .inr ⟨rfl, rfl, .inl ⟨rfl, rfl⟩⟩
          · exact .inl (.inr ⟨rfl, .inl h⟩)
        · rcases List.mem_cons.mp h with h | h
          · simp only [Prod.mk.injEq] at h
            obtain ⟨rfl, rfl, rfl⟩ := h
            exact .inr ⟨rfl, rfl, .inr ⟨rfl, h'.1⟩⟩
          · exact .inl (.inr ⟨rfl, .inr ⟨lc, h, h'⟩⟩)

/-- the state after "mark the state as expanded" -/
def mark (st : LazyARA) (s : Nat) : LazyARA :=
  { st with v := upd st.v s (st.g s), epar := upd st.epar s (st.par s), iterC := upd st.iterC s st.iter }

theorem all_true {st : LazyARA} {s0 : Nat} (sd : Sound st s0) (at' : st.AllTrue) {u : Nat} (hu : st.acc u) : st.isTrue u = true ∧ st.lazy u = [] := by
  have : st.isTrue u = true := by
    cases h : st.isTrue u with
    | true => rfl
    | false =>
      obtain ⟨_, p, lc, _, _, hm, _⟩ := sd.untrue u hu h
      exact absurd (at' _ _ _ _ hm) (by simp)
  exact ⟨this, sd.clear u hu this⟩

theorem sound_mark {st : LazyARA} {s0 s : Nat} (sd : Sound st s0) (as : st.acc s) (ht : st.isTrue s = true) (lt : st.g s < st.v s) :
    Sound (st.mark s) s0 := by
  have vs : (st.mark s).v s = st.g s := upd_same _ _ _
  have vo : ∀ u, u ≠ s → (st.mark s).v u = st.v u := fun u h => upd_other _ _ h
  have vle : ∀ u, (st.mark s).v u ≤ st.v u := by
    intro u
    by_cases q : u = s
    · rw [q, vs]; omega
    · rw [vo _ q]
  have valle : ∀ e, (st.mark s).val e ≤ st.val e := fun e => Nat.add_le_add_right (vle _) _
  have vI := sd.vInf s as
  have ls := sd.clear s as ht
  refine ⟨sd.startAcc, sd.startG, sd.startT, ?_, ?_, ?_, ?_, ?_, ?_, sd.clear, ?_⟩
  · by_cases q : s0 = s
    · right; rw [q, vs, ← q]; exact sd.startG
    · rw [vo _ q]; exact sd.startV
  · intro u h; exact Nat.le_trans (vle u) (sd.vInf u h)
  · intro u h
    show st.g u < _ ∨ st.g u = _ ∨ _
    by_cases q : u = s
    · rw [q, vs]; exact .inr (.inl rfl)
    · rw [vo _ q]; exact sd.gCase u h
  · intro u h hf
    have q : u ≠ s := by rintro rfl; rw [show st.isTrue u = false from hf] at ht; cases ht
    obtain ⟨a1, p, lc, a2, a3, a4, a5⟩ := sd.untrue u h hf
    exact ⟨by rw [vo _ q]; exact a1, p, lc, a2, a3, a4, Nat.le_trans (Nat.add_le_add_right (vle p) 1) a5⟩
  · intro u h hf l n
    obtain ⟨p, c, a2, a3, a4, a5⟩ := sd.truth u h hf l n
    exact ⟨p, c, a2, a3, a4, Nat.le_trans (Nat.add_le_add_right (vle p) c) a5⟩
  · intro u h e he
    have q : u ≠ s := by rintro rfl; rw [show (st.mark u).lazy u = st.lazy u from rfl, ls] at he; cases he
    have x := sd.elem u h e he
    exact ⟨x.acc, x.pos, by rw [vo _ q]; exact Nat.lt_of_le_of_lt (valle e) x.lt, x.tru, x.lzy⟩
  · intro u h l n
    by_cases q : u = s
    · subst q
      rw [vs] at l ⊢
      obtain ⟨p, c, a2, a3, a4, a5⟩ := sd.truth u h ht l n
      exact ⟨p, c, by show upd st.epar u _ u = _; rw [upd_same]; exact a2, a3, a4, Nat.le_trans (Nat.add_le_add_right (vle p) c) a5⟩
    · rw [vo _ q] at l ⊢
      obtain ⟨p, c, a2, a3, a4, a5⟩ := sd.vPtr u h l n
      exact ⟨p, c, by show upd st.epar s _ u = _; rw [upd_other _ _ q]; exact a2, a3, a4, Nat.le_trans (Nat.add_le_add_right (vle p) c) a5⟩

theorem mark_spec {st : LazyARA} {s0 gl s : Nat} (P : Rel) (q : QueueOk st.Q wf) (pos : ∀ p s c, st.E p s c → 1 ≤ c) (sd : Sound st s0)
    (hi : HInv st gl (some s)) (as : st.acc s) (nh : keyOf st.heap s = none) (ni : st.iterC s ≠ st.iter) (ht : st.isTrue s = true)
    (lt : st.g s < st.v s) :
    Sound (st.mark s) s0 ∧ HInv (st.mark s) gl none ∧ (Opt wf st s0 P → Opt wf (st.mark s) s0 (plus P (todo st s (st.nbr s)))) := by
  have vs : (st.mark s).v s = st.g s := upd_same _ _ _
  have vo : ∀ u, u ≠ s → (st.mark s).v u = st.v u := fun u h => upd_other _ _ h
  have vle : ∀ u, (st.mark s).v u ≤ st.v u := by
    intro u
    by_cases q : u = s
    · rw [q, vs]; omega
    · rw [vo _ q]
  have valle : ∀ e, (st.mark s).val e ≤ st.val e := fun e => Nat.add_le_add_right (vle _) _
  have vI := sd.vInf s as
  have iS : (st.mark s).iterC s = st.iter := upd_same _ _ _
  have io : ∀ u, u ≠ s → (st.mark s).iterC u = st.iterC u := fun u h => upd_other _ _ h
  have nI : s ∉ st.incons := fun h => ni (hi.inc s h)
  have ls := sd.clear s as ht
  refine ⟨sound_mark sd as ht lt, ?_, ?_⟩
  · have nn : ∀ u, keyOf st.heap u ≠ none → u ≠ s := by rintro u h rfl; exact h nh
    have ns : ∀ u : Nat, u ≠ s → some u ≠ some s := fun u h c => h (Option.some.inj c)
    refine ⟨hi.bp, hi.ord, hi.staleH, hi.incAcc, hi.incNodup, hi.incFlag, ?_, ?_, ?_, ?_, ?_, ?_, ?_, hi.iterLt⟩
    · intro u k _ hk
      have qu := nn u (by rw [show keyOf st.heap u = some k from hk]; simp)
      exact hi.keys u k (ns u qu) hk
    · intro u hk
      rw [vo _ (nn u hk)]; exact hi.openLt u hk
    · intro u hu
      have qu : u ≠ s := by rintro rfl; exact nI hu
      rw [vo _ qu]; exact hi.incLt u hu
    · intro u _ hu l
      by_cases qu : u = s
      · subst qu; rw [vs] at l; exact absurd l (Nat.lt_irrefl _)
      · rw [vo _ qu] at l; exact hi.ltIn u (ns u qu) hu l
    · intro u hk; rw [io _ (nn u hk)]; exact hi.opn u hk
    · intro u hu
      have qu : u ≠ s := by rintro rfl; exact nI hu
      rw [io _ qu]; exact hi.inc u hu
    · intro u hu
      by_cases qu : u = s
      · subst qu; rw [iS]; exact .inl (Nat.le_refl _)
      · rw [io _ qu]; exact hi.iterLe u hu
  · intro o
    -- no candidate refers to `s`
    have np : ∀ u e, st.acc u → e ∈ st.lazy u → (st.mark s).val e = st.val e := by
      intro u e hu he
      show (st.mark s).v e.par + e.cost = st.v e.par + e.cost
      rcases o.once with h | h
      · have x := (sd.elem u hu e he).lt
        have := sd.vInf u hu
        have q : e.par ≠ s := by
          intro c
          have x : st.v e.par + e.cost < st.v u := x
          rw [c] at x
          exact ni (h s as (by omega))
        rw [vo _ q]
      · rw [(all_true sd h hu).2] at he; cases he
    refine ⟨?_, ?_, ?_, ?_, o.elemUnder, ?_, ?_⟩
    · intro u t c hu l ee
      by_cases q : u = s
      · subst q
        refine .inl (.inr ⟨rfl, ?_⟩)
        rcases ee with h | ⟨lc, h1, h2, h3⟩
        · exact .inl h
        · exact .inr ⟨lc, h1, h2, h3⟩
      · rw [vo _ q] at l
        rcases o.rep u t c hu l ee with h | ⟨at', h⟩
        · exact .inl (.inl h)
        · right
          refine ⟨at', ?_⟩
          rw [vo _ q]
          rcases h with h | h | h | ⟨h, e, he, h'⟩
          · exact .inl (Nat.le_trans (vle t) h)
          · exact .inr (.inl h)
          · exact .inr (.inr (.inl h))
          · exact .inr (.inr (.inr ⟨h, e, he, Nat.le_trans (valle e) h'.1, h'.2⟩))
    · intro u hu hf e he
      rw [np u e hu he]; exact o.ord u hu hf e he
    · intro u hu
      exact q.congr _ _ _ (fun e he => (np u e hu he).symm) (o.wfq u hu)
    · intro u p hu hf hp hpos
      have qp : p ≠ s := by
        rintro rfl
        rcases o.once with h | h
        · obtain ⟨a1, p', lc, a2, a3, a4, a5⟩ := sd.untrue u hu hf
          rw [show st.par u = some p from hp] at a2
          cases a2
          have := sd.vInf u hu
          exact ni (h p as (by omega))
        · exact absurd ((all_true sd h hu).1) (by rw [show st.isTrue u = false from hf]; simp)
      rw [vo _ qp]; exact o.under u p hu hf hp hpos
    · rcases o.once with h | h
      · left
        intro u hu l
        by_cases qu : u = s
        · subst qu; rw [iS]; rfl
        · rw [vo _ qu] at l; rw [io _ qu]; exact h u hu l
      · exact .inr h
    · intro u hu l
      by_cases qu : u = s
      · by_cases q0 : s = s0
        · subst q0; rw [vs, sd.startG]; decide
        · rw [vo _ (Ne.symm q0)]
          obtain ⟨p, c, a2, a3, a4, a5⟩ := sd.truth s as ht (by omega) q0
          have := pos _ _ _ a4
          exact o.root p a3 (by omega)
      · rw [vo _ qu] at l
        exact Nat.lt_of_le_of_lt (vle s0) (o.root u hu l)

end Sbpl.LazyARA
