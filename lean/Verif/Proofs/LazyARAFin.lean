import Verif.Proofs.LazyARAPass
/-! Lazy ARA*: the end of ImprovePath. -/

namespace Sbpl.LazyARA
open LazySpec Heap

variable {wf : (LazyElem → Nat) → List LazyElem → Prop}

/-- the goal has been reached in an earlier pass or has no back pointer -/
def EpG (st : LazyARA) (gl : Nat) : Prop := st.v gl < INF ∨ st.epar gl = none

/-- back pointer of the goal for the value `x`; the edge may be unevaluated if `out` -/
def LastOk (st : LazyARA) (gl : Nat) (out : Prop) (p x : Nat) : Prop :=
  st.acc p ∧ ((∃ c, st.E p gl c ∧ st.v p + c ≤ x) ∨ (out ∧ (∃ lc, (gl, lc, false) ∈ st.nbr p) ∧ st.v p + 1 ≤ x))

/-- what GetSearchPath needs -/
structure Tail (st : LazyARA) (s0 gl : Nat) (out : Prop) : Prop where
  gInf : st.g gl ≤ INF
  vInf : st.v gl ≤ INF
  ptr : ∀ s, st.acc s → st.v s < INF → s ≠ s0 → s ≠ gl → ∃ p c, st.epar s = some p ∧ st.acc p ∧ st.E p s c ∧ st.v p + c ≤ st.v s
  goalV : gl ≠ s0 → st.v gl < INF → ∃ p, st.epar gl = some p ∧ LastOk st gl out p (st.v gl)
  goalG : gl ≠ s0 → st.v gl = INF → st.epar gl = none ∧ (st.g gl < INF → ∃ p, st.par gl = some p ∧ LastOk st gl out p (st.g gl))
  start : gl = s0 → st.g gl = 0

theorem Tail.mono {st : LazyARA} {s0 gl : Nat} {o o' : Prop} (t : Tail st s0 gl o) (h : o → o') : Tail st s0 gl o' := by
  have lm : ∀ p x, LastOk st gl o p x → LastOk st gl o' p x := by
    rintro p x ⟨a, h1 | ⟨h1, h2⟩⟩
    · exact ⟨a, .inl h1⟩
    · exact ⟨a, .inr ⟨h h1, h2⟩⟩
  refine ⟨t.gInf, t.vInf, t.ptr, ?_, ?_, t.start⟩
  · intro n l
    obtain ⟨p, h1, h2⟩ := t.goalV n l
    exact ⟨p, h1, lm _ _ h2⟩
  · intro n l
    obtain ⟨h0, h1⟩ := t.goalG n l
    refine ⟨h0, fun q => ?_⟩
    obtain ⟨p, h1, h2⟩ := h1 q
    exact ⟨p, h1, lm _ _ h2⟩

theorem Base.gLe {st : LazyARA} {s0 gl : Nat} {H0 : Nat → Nat} (b : Base wf st s0 gl H0) : st.g gl ≤ INF := by
  have := b.sound.vInf gl b.accG
  rcases b.sound.gCase gl b.accG with h | h | h <;> omega

theorem tail_of_base {st : LazyARA} {s0 gl : Nat} {H0 : Nat → Nat} {out : Prop} (b : Base wf st s0 gl H0) (ep : EpG st gl)
    (h : st.isTrue gl = true ∨ out) : Tail st s0 gl out := by
  refine ⟨b.gLe, b.sound.vInf gl b.accG, fun s a l n _ => b.sound.vPtr s a l n, ?_, ?_, fun h => by rw [h]; exact b.sound.startG⟩
  · intro n l
    obtain ⟨p, c, h1, h2, h3, h4⟩ := b.sound.vPtr gl b.accG l n
    exact ⟨p, h1, h2, .inl ⟨c, h3, h4⟩⟩
  · intro n l
    refine ⟨?_, ?_⟩
    · rcases ep with h | h
      · omega
      · exact h
    · intro gl'
      cases ht : st.isTrue gl with
      | true =>
        obtain ⟨p, c, h1, h2, h3, h4⟩ := b.sound.truth gl b.accG ht gl' n
        exact ⟨p, h1, h2, .inl ⟨c, h3, h4⟩⟩
      | false =>
        obtain ⟨_, p, lc, h1, h2, h3, h4⟩ := b.sound.untrue gl b.accG ht
        rcases h with h | h
        · rw [ht] at h; cases h
        · exact ⟨p, h1, h2, .inr ⟨h, ⟨lc, h3⟩, h4⟩⟩

/-- with true costs only, nothing but the values matters -/
theorem opt_mono {a b : LazyARA} {s0 gl : Nat} (sd : Sound b s0) (pos : ∀ p s c, b.E p s c → 1 ≤ c) (at' : a.AllTrue) (q : QueueOk b.Q wf)
    (nb : b.nbr = a.nbr) (tc : b.trueCost = a.trueCost) (ac : ∀ u, b.acc u ↔ a.acc u) (vO : ∀ u, u ≠ gl → b.v u = a.v u) (vL : ∀ u, b.v u ≤ a.v u)
    (gL : ∀ u, a.acc u → b.g u ≤ a.g u) (o : Opt wf a s0 (pg gl)) : Opt wf b s0 (pg gl) := by
  have at2 : b.AllTrue := by unfold AllTrue; rw [nb]; exact at'
  have tr : ∀ u, b.acc u → b.isTrue u = true ∧ b.lazy u = [] := fun u h => all_true sd at2 h
  have EE : b.E = a.E := by unfold LazyARA.E; rw [nb, tc]
  have notF : ∀ u (P : Prop), b.acc u → b.isTrue u = false → P := by
    intro u P h hf; rw [(tr u h).1] at hf; cases hf
  refine ⟨?_, fun u h hf => notF u _ h hf, ?_, fun u p h hf => notF u _ h hf, ?_, .inr at2, ?_⟩
  · intro u t c hu lt ee
    by_cases ug : u = gl
    · exact .inl ug
    rw [vO u ug] at lt
    rw [EE] at ee
    rcases o.rep u t c ((ac u).mp hu) lt ee with h | ⟨ta, h⟩
    · exact absurd h ug
    · right
      have tb := (ac t).mpr ta
      refine ⟨tb, ?_⟩
      rw [vO u ug]
      have := vL t
      have := gL t ta
      rcases h with h | h | h | ⟨h, e, he, h'⟩
      · exact .inl (by omega)
      · exact .inr (.inl ⟨(tr t tb).1, by omega⟩)
      · have hb := o.under t u ta h.1 h.2.1 (by rw [h.2.2]; have := pos u t c (by rw [EE]; exact ee); omega)
        rw [h.2.2] at hb
        exact .inr (.inl ⟨(tr t tb).1, by omega⟩)
      · have hb := o.ord t ta h e he
        exact .inr (.inl ⟨(tr t tb).1, by omega⟩)
  · intro u h; rw [(tr u h).2]; exact q.nil _
  · intro u h e he; rw [(tr u h).2] at he; cases he
  · intro u hu lt
    have key : ∀ w, a.acc w → a.v w < INF → b.v s0 < INF := by
      intro w hw hl
      exact Nat.lt_of_le_of_lt (vL s0) (o.root w hw hl)
    by_cases ug : u = gl
    · by_cases u0 : u = s0
      · rw [← u0]; exact lt
      · obtain ⟨p, c, _, h2, h3, h4⟩ := sd.vPtr u hu lt u0
        have := pos _ _ _ h3
        have pg' : p ≠ gl := by rintro rfl; rw [ug] at h4; omega
        exact key p ((ac p).mp h2) (by rw [← vO p pg']; omega)
    · rw [vO u ug] at lt
      exact key u ((ac u).mp hu) lt

/-- effect of the two assignments at the end of ImprovePath -/
structure EndPost (wf : (LazyElem → Nat) → List LazyElem → Prop) (st : LazyARA) (s0 gl : Nat) (H0 : Nat → Nat) (st' : LazyARA) : Prop where
  base : Base wf st' s0 gl H0
  fr : Fr st st'
  cl : ∀ u, st'.closed u ↔ st.closed u
  vO : ∀ u, u ≠ gl → st'.v u = st.v u
  vG : st'.v gl ≤ st.v gl
  heapE : st'.heap = st.heap
  trueE : st'.isTrue = st.isTrue
  opt : AllTrue st → Opt wf st s0 (pg gl) → Opt wf st' s0 (pg gl)

theorem restore_spec {st : LazyARA} {s0 gl : Nat} {H0 : Nat → Nat} (b : Base wf st s0 gl H0) :
    EndPost wf st s0 gl H0 (st.restoreGoal gl) ∧ (st.restoreGoal gl).g gl = min (st.g gl) (st.v gl) ∧ (st.restoreGoal gl).v = st.v ∧
      (st.restoreGoal gl).epar = st.epar := by
  unfold restoreGoal
  split
  next lt =>
    have n0 : gl ≠ s0 := by rintro rfl; rw [b.sound.startG] at lt; omega
    have gle := b.gLe
    have ht : st.isTrue gl = true := by
      cases h : st.isTrue gl with
      | true => rfl
      | false => have := (b.sound.untrue gl b.accG h).1; omega
    have nh : keyOf st.heap gl = none := by
      by_contra c
      rcases b.hinv.openLt gl c with h | ⟨_, h, _⟩ <;> omega
    obtain ⟨p, c, p1, p2, p3, p4⟩ := b.sound.vPtr gl b.accG (by omega) n0
    have go : ∀ u, u ≠ gl → upd st.g gl (st.v gl) u = st.g u := fun u h => upd_other _ _ h
    have gs : upd st.g gl (st.v gl) gl = st.v gl := upd_same _ _ _
    have fr : Fr st { st with g := upd st.g gl (st.v gl), par := upd st.par gl (st.epar gl) } :=
      ⟨rfl, rfl, rfl, rfl, rfl, rfl, rfl, rfl, rfl, rfl, rfl, rfl, rfl, rfl, fun _ h => h, fun _ _ => rfl, fun _ => .inl rfl⟩
    have sd : Sound { st with g := upd st.g gl (st.v gl), par := upd st.par gl (st.epar gl) } s0 := by
      have i := b.sound
      refine ⟨i.startAcc, ?_, i.startT, i.startV, i.vInf, ?_, ?_, ?_, ?_, i.clear, i.vPtr⟩
      · show upd st.g gl _ s0 = 0
        rw [go _ (Ne.symm n0)]; exact i.startG
      · intro u h
        show upd st.g gl _ u < st.v u ∨ upd st.g gl _ u = st.v u ∨ upd st.g gl _ u = INF
        by_cases q : u = gl
        · subst q; rw [gs]; exact .inr (.inl rfl)
        · rw [go _ q]; exact i.gCase u h
      · intro u h hf
        have q : u ≠ gl := by rintro rfl; rw [show st.isTrue u = false from hf] at ht; cases ht
        show upd st.g gl _ u < st.v u ∧ ∃ p lc, upd st.par gl _ u = some p ∧ st.acc p ∧ (u, lc, false) ∈ st.nbr p ∧ st.v p + 1 ≤ upd st.g gl _ u
        rw [go _ q, upd_other _ _ q]; exact i.untrue u h hf
      · intro u h hf l n
        have l : upd st.g gl (st.v gl) u < INF := l
        show ∃ p c, upd st.par gl _ u = some p ∧ st.acc p ∧ st.E p u c ∧ st.v p + c ≤ upd st.g gl _ u
        by_cases q : u = gl
        · subst q; rw [gs, upd_same]; exact ⟨p, c, p1, p2, p3, p4⟩
        · rw [go _ q] at l ⊢; rw [upd_other _ _ q]; exact i.truth u h hf l n
      · intro u h e he
        have x := i.elem u h e he
        exact ⟨x.acc, x.pos, x.lt, x.tru, x.lzy⟩
    have nn : ∀ u, keyOf st.heap u ≠ none → u ≠ gl := by rintro u h rfl; exact h nh
    have hi : HInv { st with g := upd st.g gl (st.v gl), par := upd st.par gl (st.epar gl) } gl none := by
      have i := b.hinv
      refine ⟨i.bp, i.ord, i.staleH, i.incAcc, i.incNodup, i.incFlag, ?_, ?_, ?_, ?_, i.opn, i.inc, i.iterLe, i.iterLt⟩
      · intro u k hx hk
        have qu := nn u (by rw [show keyOf st.heap u = some k from hk]; simp)
        rw [i.keys u k hx hk]
        unfold keyFor
        show _ = (⟨((upd st.g gl (st.v gl) u + ARA.infl st.D st.eps (st.h u) : Nat) : Int), 0⟩ : CKey)
        rw [go _ qu]
      · intro u hk
        show upd st.g gl _ u < st.v u ∨ (u = gl ∧ upd st.g gl _ u = st.v u ∧ _)
        rw [go _ (nn u hk)]; exact i.openLt u hk
      · intro u hu
        have qu : u ≠ gl := by rintro rfl; exact b.goalNotInc hu
        show upd st.g gl _ u < st.v u
        rw [go _ qu]; exact i.incLt u hu
      · intro u hx hu l
        have l : upd st.g gl (st.v gl) u < st.v u := l
        by_cases q : u = gl
        · subst q; rw [gs] at l; omega
        · rw [go _ q] at l; exact i.ltIn u hx hu l
    refine ⟨⟨⟨b.q, b.pos, sd, hi, b.accG, b.goalIt, b.hv⟩, fr, fun _ => Iff.rfl, fun _ _ => rfl, Nat.le_refl _, rfl, rfl, ?_⟩, ?_, rfl, rfl⟩
    · intro at' o
      refine opt_mono sd b.posE at' b.q rfl rfl (fun _ => Iff.rfl) (fun _ _ => rfl) (fun _ => Nat.le_refl _) ?_ o
      intro u _
      show upd st.g gl _ u ≤ st.g u
      by_cases q : u = gl
      · subst q; rw [gs]; omega
      · rw [go _ q]
    · show upd st.g gl _ gl = _
      rw [gs]; omega
  next lt =>
    exact ⟨⟨b, Fr.refl st, fun _ => Iff.rfl, fun _ _ => rfl, Nat.le_refl _, rfl, rfl, fun _ h => h⟩, by omega, rfl, rfl⟩

/-- the goal takes over its candidate -/
def adopt (st : LazyARA) (gl : Nat) : LazyARA := { st with epar := upd st.epar gl (st.par gl), v := upd st.v gl (st.g gl) }

theorem hinv_adopt {st : LazyARA} {s0 gl : Nat} {H0 : Nat → Nat} (b : Base wf st s0 gl H0) (lt : st.g gl < st.v gl) : HInv (st.adopt gl) gl none := by
  have i := b.hinv
  have vI := b.sound.vInf gl b.accG
  have vs : (st.adopt gl).v gl = st.g gl := upd_same _ _ _
  have vo : ∀ u, u ≠ gl → (st.adopt gl).v u = st.v u := fun u h => upd_other _ _ h
  refine ⟨i.bp, i.ord, i.staleH, i.incAcc, i.incNodup, i.incFlag, i.keys, ?_, ?_, ?_, i.opn, i.inc, i.iterLe, i.iterLt⟩
  · intro u hk
    show st.g u < _ ∨ (u = gl ∧ st.g u = _ ∧ _)
    by_cases q : u = gl
    · subst q; rw [vs]; exact .inr ⟨rfl, rfl, by omega⟩
    · rw [vo _ q]; exact i.openLt u hk
  · intro u hu
    have qu : u ≠ gl := by rintro rfl; exact b.goalNotInc hu
    rw [vo _ qu]; exact i.incLt u hu
  · intro u hx hu l
    by_cases q : u = gl
    · subst q
      rw [vs] at l
      exact absurd l (Nat.lt_irrefl _)
    · rw [vo _ q] at l; exact i.ltIn u hx hu l

theorem adopt_spec {st : LazyARA} {s0 gl : Nat} {H0 : Nat → Nat} (b : Base wf st s0 gl H0) (lt : st.g gl < st.v gl) (ht : st.isTrue gl = true) :
    EndPost wf st s0 gl H0 (st.adopt gl) := by
  have sm := sound_mark b.sound b.accG ht lt
  have sd : Sound (st.adopt gl) s0 :=
    ⟨sm.startAcc, sm.startG, sm.startT, sm.startV, sm.vInf, sm.gCase, sm.untrue, sm.truth,
      fun s hs e he => ⟨(sm.elem s hs e he).acc, (sm.elem s hs e he).pos, (sm.elem s hs e he).lt, (sm.elem s hs e he).tru, (sm.elem s hs e he).lzy⟩,
      sm.clear, sm.vPtr⟩
  have vs : (st.adopt gl).v gl = st.g gl := upd_same _ _ _
  have vo : ∀ u, u ≠ gl → (st.adopt gl).v u = st.v u := fun u h => upd_other _ _ h
  refine ⟨⟨b.q, b.pos, sd, hinv_adopt b lt, b.accG, b.goalIt, b.hv⟩,
    ⟨rfl, rfl, rfl, rfl, rfl, rfl, rfl, rfl, rfl, rfl, rfl, rfl, rfl, rfl, fun _ h => h, fun _ _ => rfl, fun _ => .inl rfl⟩, fun _ => Iff.rfl, vo,
    by rw [vs]; omega, rfl, rfl, ?_⟩
  intro at' o
  refine opt_mono sd b.posE at' b.q rfl rfl (fun _ => Iff.rfl) vo ?_ (fun _ _ => Nat.le_refl _) o
  intro u
  by_cases q : u = gl
  · subst q; rw [vs]; omega
  · rw [vo _ q]

theorem adopt_tail {st : LazyARA} {s0 gl : Nat} {H0 : Nat → Nat} {out : Prop} (b : Base wf st s0 gl H0) (lt : st.g gl < st.v gl)
    (h : st.isTrue gl = true ∨ out) : Tail (st.adopt gl) s0 gl out := by
  have vs : (st.adopt gl).v gl = st.g gl := upd_same _ _ _
  have vo : ∀ u, u ≠ gl → (st.adopt gl).v u = st.v u := fun u h => upd_other _ _ h
  have vI := b.sound.vInf gl b.accG
  have vle : ∀ u, (st.adopt gl).v u ≤ st.v u := by
    intro u
    by_cases q : u = gl
    · subst q; rw [vs]; omega
    · rw [vo _ q]
  refine ⟨b.gLe, by rw [vs]; omega, ?_, ?_, ?_, fun h => by rw [h]; exact b.sound.startG⟩
  · intro s a l n0 ng
    rw [vo _ ng] at l ⊢
    obtain ⟨p, c, h1, h2, h3, h4⟩ := b.sound.vPtr s a l n0
    exact ⟨p, c, by show upd st.epar gl _ s = _; rw [upd_other _ _ ng]; exact h1, h2, h3, Nat.le_trans (Nat.add_le_add_right (vle p) c) h4⟩
  · intro n0 l
    rw [vs] at l ⊢
    show ∃ p, upd st.epar gl (st.par gl) gl = some p ∧ _
    rw [upd_same]
    cases ht : st.isTrue gl with
    | true =>
      obtain ⟨p, c, h1, h2, h3, h4⟩ := b.sound.truth gl b.accG ht l n0
      exact ⟨p, h1, h2, .inl ⟨c, h3, Nat.le_trans (Nat.add_le_add_right (vle p) c) h4⟩⟩
    | false =>
      obtain ⟨_, p, lc, h1, h2, h3, h4⟩ := b.sound.untrue gl b.accG ht
      rcases h with h | h
      · rw [ht] at h; cases h
      · exact ⟨p, h1, h2, .inr ⟨h, ⟨lc, h3⟩, Nat.le_trans (Nat.add_le_add_right (vle p) 1) h4⟩⟩
  · intro n0 l; rw [vs] at l; omega

/-- cutting a walk to the goal at its first visit of the goal -/
theorem walk_cut {E : Rel} {s0 gl n c : Nat} (w : RWalk E s0 n c) :
    (∃ c', c' ≤ c ∧ RWalk (fun u t k => u ≠ gl ∧ E u t k) s0 gl c') ∨ RWalk (fun u t k => u ≠ gl ∧ E u t k) s0 n c := by
  induction w with
  | nil => exact .inr .nil
  | @snoc n t c d w hm ih =>
    rcases ih with ⟨c', h1, h2⟩ | h
    · exact .inl ⟨c', by omega, h2⟩
    · by_cases q : n = gl
      · subst q; exact .inl ⟨c, by omega, h⟩
      · exact .inr (.snoc h ⟨q, hm⟩)

/-- result of an ImprovePath call -/
structure PassPost (wf : (LazyElem → Nat) → List LazyElem → Prop) (st : LazyARA) (s0 gl : Nat) (H0 : Nat → Nat)
    (r : LazyARA × Nat × Bool × List Nat) : Prop where
  fr : Fr st r.1
  hinv : HInv r.1 gl none
  nodup : r.2.2.2.Nodup
  noGoal : gl ∉ r.2.2.2
  range : r.2.1 ≤ 2
  two : r.2.1 = 2 → r.2.2.1 = true
  zero : r.2.1 = 0 → r.1.g gl = INF
  notFirst : r.2.2.1 = true → st.first = false
  vMono : r.1.v gl ≤ st.v gl
  gv : r.2.1 = 1 → r.1.v gl = r.1.g gl
  gLeV : r.1.g gl ≤ r.1.v gl
  tail : Tail r.1 s0 gl (r.2.2.1 = true)
  epg : EpG r.1 gl
  cut : r.2.2.1 = true → AllTrue st → r.2.1 = 2
  next : r.2.2.1 = false → Base wf r.1 s0 gl H0 ∧ (AllTrue st → Low st → Opt wf st s0 (pg gl) → Opt wf r.1 s0 (pg gl))
  bound : r.2.2.1 = false → Low st → Opt wf st s0 (pg gl) → J st s0 gl → st.hOf gl = 0 → ARA.infl st.D st.eps (H0 s0) < INF →
    ∀ E, EpsLe st E → ∀ c, RWalk st.E s0 gl c → E.M * r.1.g gl ≤ E.N * c

theorem improvePath_spec {st : LazyARA} {s0 gl : Nat} {H0 : Nat → Nat} (n : Nat) (b : Base wf st s0 gl H0) (ep : EpG st gl) (hg : H0 gl = 0) :
    OkOrT st.first (st.improvePath gl n) (PassPost wf st s0 gl H0) := by
  have ls := improveLoop_spec n b
  unfold improvePath
  cases e : improveLoop gl n st with
  | error x => rw [e] at ls; exact ls
  | ok r =>
    rw [e] at ls
    obtain ⟨st1, out, tr⟩ := r
    have lp : LoopPost wf st s0 gl H0 (st1, out, tr) := ls
    obtain ⟨ep2, gm, v2, e2⟩ := restore_spec lp.base
    simp only at ep2 gm v2 e2 ⊢
    have b1 : Base wf st1 s0 gl H0 := lp.base
    have ep1 : EpG st1 gl := by
      unfold EpG
      have := lp.vGoal
      have := lp.epGoal
      simp only at *
      rw [lp.vGoal, lp.epGoal]; exact ep
    have vg1 : st1.v gl = st.v gl := lp.vGoal
    have fr1 : Fr st st1 := lp.fr
    have lf : out = false → st1.loopCond gl = false := lp.fin
    have low1 : Low st → Low st1 := by intro l; unfold Low; rw [fr1.nbr, fr1.tc]; exact l
    generalize st1.restoreGoal gl = st2 at *
    have b2 := ep2.base
    have epg2 : EpG st2 gl := by unfold EpG; rw [v2, e2]; exact ep1
    have gle2 := b2.gLe
    have vle2 := b2.sound.vInf gl b2.accG
    have fr2 : Fr st st2 := fr1.trans ep2.fr
    have vg2 : st2.v gl = st.v gl := by rw [v2]; exact vg1
    have gv2 : st2.g gl ≤ st2.v gl := by rw [gm, v2]; omega
    have exT : out = false → st2.isTrue gl = true := by
      intro h; rw [ep2.trueE]; exact exit_true b1 (lp.fin h) hg
    -- the keys of the heap are those at the end of the loop
    have minE : ∀ z : st2.heap.size ≠ 0, (st2.minKey).k0 = (st1.heap.kat 1).k0 := by
      intro z
      unfold minKey Heap.getMinKey
      rw [if_neg z, ep2.heapE]; rfl
    have no2 : out = false → st2.heap.isEmpty = false → ¬ ((st2.g gl : Int) > st2.minKey.k0) := by
      intro h ne
      have z : st2.heap.size ≠ 0 := by simpa [Heap.isEmpty] using ne
      have z1 : st1.heap.size ≠ 0 := by rw [← ep2.heapE]; exact z
      have m := minE z
      rcases exit_cases (lf h) (by rw [← ep2.trueE]; exact exT h) with c | ⟨_, c | c⟩
      · exact absurd c z1
      · unfold INF INFINITECOST at gle2; omega
      · rw [gm]; omega
    have cutA : out = true → AllTrue st → st2.heap.isEmpty = false ∧ (st2.g gl : Int) > st2.minKey.k0 := by
      intro h at'
      obtain ⟨z, k1, k2, k3⟩ := loopCond_iff.mp (lp.time h).2
      simp only at z k1 k2 k3
      have tr1 := (all_true b1.sound (by unfold AllTrue; rw [fr1.nbr]; exact at') b1.accG).1
      have z2 : st2.heap.size ≠ 0 := by rw [ep2.heapE]; exact z
      refine ⟨by simp [Heap.isEmpty, z2], ?_⟩
      rw [minE z2, gm]
      rw [tr1] at k2
      have k2 := k2.resolve_right (by simp)
      omega
    have bnd : out = false → Low st → Opt wf st s0 (pg gl) → J st s0 gl → st.hOf gl = 0 → ARA.infl st.D st.eps (H0 s0) < INF →
        ∀ E, EpsLe st E → ∀ c, RWalk st.E s0 gl c → E.M * st2.g gl ≤ E.N * c := by
      intro ho low o hj h0 hs E he c w
      have he1 : EpsLe st1 E := by
        refine ⟨he.one, ?_⟩
        rw [fr1.E, fr1.D, fr1.eps, fr1.hOf]; exact he.le
      have xb := fun c' w' => exit_bound (E := E) (c := c') b1 (lp.opt low o) (lp.j low o hg hj) (lp.fin ho) hg (by rw [fr1.hOf]; exact h0)
        (by rw [fr1.D, fr1.eps]; exact hs) he1 w'
      rw [gm]
      have wE : RWalk st1.E s0 gl c := by rw [fr1.E]; exact w
      rcases walk_cut (gl := gl) wE with ⟨c', h1, h2⟩ | h
      · exact Nat.le_trans (xb c' h2) (Nat.mul_le_mul_left _ h1)
      · exact xb c h
    have tail2 : Tail st2 s0 gl (out = true) := by
      refine tail_of_base b2 epg2 ?_
      cases out with
      | true => exact .inr rfl
      | false => exact .inl (exT rfl)
    have nxt2 : AllTrue st → Low st → Opt wf st s0 (pg gl) → Opt wf st2 s0 (pg gl) := by
      intro at' low o
      exact ep2.opt (by unfold AllTrue; rw [fr1.nbr]; exact at') (lp.opt low o)
    have nF : out = true → st.first = false := fun h => (lp.time h).1
    unfold finish
    split
    next h0 =>
      exact ⟨fr2, b2.hinv, lp.nodup, lp.noGoal, by simp, by simp, fun _ => h0.1, nF, by show st2.v gl ≤ _; omega, by simp, gv2, tail2, epg2,
        fun h at' => by
          obtain ⟨c1, c2⟩ := cutA h at'
          rcases h0.2 with h | h
          · rw [c1] at h; cases h
          · rw [h0.1] at c2; unfold INFINITECOST at c2; omega,
        fun _ => ⟨b2, nxt2⟩, bnd⟩
    next h0 =>
      split
      next h1 =>
        refine ⟨fr2, b2.hinv, lp.nodup, lp.noGoal, by simp, ?_, by simp, nF, by show st2.v gl ≤ _; omega, by simp, gv2, tail2, epg2, by simp,
          fun _ => ⟨b2, nxt2⟩, bnd⟩
        intro _
        show out = true
        cases ho : out with
        | true => rfl
        | false => exact absurd h1.2 (no2 ho h1.1)
      next h1 =>
        have cut' : out = true → AllTrue st → (1 : Nat) = 2 := by
          intro h at'
          exact absurd (cutA h at') h1
        split
        next lt =>
          show PassPost wf st s0 gl H0 (st2.adopt gl, 1, out, tr)
          have tt : st2.isTrue gl = true ∨ out = true := by
            cases ho : out with
            | true => exact .inr rfl
            | false => exact .inl (exT ho)
          have vs : (st2.adopt gl).v gl = st2.g gl := upd_same _ _ _
          refine ⟨fr2.trans ⟨rfl, rfl, rfl, rfl, rfl, rfl, rfl, rfl, rfl, rfl, rfl, rfl, rfl, rfl, fun _ h => h, fun _ _ => rfl, fun _ => .inl rfl⟩,
            hinv_adopt b2 lt, lp.nodup, lp.noGoal, by simp, by simp, by simp, nF, ?_, fun _ => vs, Nat.le_of_eq vs.symm, adopt_tail b2 lt tt, ?_, cut', ?_, bnd⟩
          · show (st2.adopt gl).v gl ≤ _
            rw [vs]; omega
          · left; rw [vs]; omega
          · intro ho
            have ap := adopt_spec b2 lt (exT ho)
            refine ⟨ap.base, ?_⟩
            intro at' low o
            exact ap.opt (by unfold AllTrue; rw [fr2.nbr]; exact at') (nxt2 at' low o)
        next lt =>
          exact ⟨fr2, b2.hinv, lp.nodup, lp.noGoal, by simp, by simp, by simp, nF, by show st2.v gl ≤ _; omega, fun _ => by show st2.v gl = st2.g gl; omega,
            gv2, tail2, epg2, cut', fun _ => ⟨b2, nxt2⟩, bnd⟩

end Sbpl.LazyARA
