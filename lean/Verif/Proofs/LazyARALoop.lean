import Verif.Proofs.LazyARAEval
/-! Lazy ARA*: the ImprovePath loop and the suboptimality bound. -/

namespace Sbpl.LazyARA
open LazySpec Heap

variable {wf : (LazyElem → Nat) → List LazyElem → Prop}

/-- value used along walks -/
noncomputable def V (st : LazyARA) (s : Nat) : Nat := by
  classical exact if st.acc s then st.v s else INF
noncomputable def B (st : LazyARA) (s : Nat) : Nat := by
  classical exact if st.acc s then min (st.g s) (st.v s) else INF

theorem V_acc {st : LazyARA} {s : Nat} (h : st.acc s) : st.V s = st.v s := by unfold V; rw [if_pos h]
theorem V_stale {st : LazyARA} {s : Nat} (h : ¬ st.acc s) : st.V s = INF := by unfold V; rw [if_neg h]
theorem B_acc {st : LazyARA} {s : Nat} (h : st.acc s) : st.B s = min (st.g s) (st.v s) := by unfold B; rw [if_pos h]
theorem B_stale {st : LazyARA} {s : Nat} (h : ¬ st.acc s) : st.B s = INF := by unfold B; rw [if_neg h]

theorem B_inf {st : LazyARA} {s0 : Nat} (sd : Sound st s0) (s : Nat) : st.B s ≤ INF := by
  by_cases h : st.acc s
  · rw [B_acc h]; have := sd.vInf s h; omega
  · rw [B_stale h]

/-- heuristic values: those of the start and the goal are read before the others (`H0`) -/
def Hv (st : LazyARA) (s0 gl : Nat) (H0 : Nat → Nat) : Prop := ∀ s, st.acc s → st.h s = if s = s0 ∨ s = gl then H0 s else st.hOf s

/-- the search is set up: the environment's costs are positive, the goal is known and was not expanded -/
structure Base (wf : (LazyElem → Nat) → List LazyElem → Prop) (st : LazyARA) (s0 gl : Nat) (H0 : Nat → Nat) : Prop where
  q : QueueOk st.Q wf
  pos : ∀ p s c f, (s, c, f) ∈ st.nbr p → 1 ≤ c
  sound : Sound st s0
  hinv : HInv st gl none
  accG : st.acc gl
  goalIt : st.iterC gl = SHORT - 1
  hv : Hv st s0 gl H0

theorem Base.posE {st : LazyARA} {s0 gl : Nat} {H0 : Nat → Nat} (b : Base wf st s0 gl H0) : ∀ p s c, st.E p s c → 1 ≤ c := by
  intro p s c h
  rcases h with h | ⟨lc, _, _, h⟩
  · exact b.pos _ _ _ _ h
  · exact h

theorem Base.goalNotInc {st : LazyARA} {s0 gl : Nat} {H0 : Nat → Nat} (b : Base wf st s0 gl H0) : gl ∉ st.incons := by
  intro h
  have := b.hinv.inc gl h
  have := b.hinv.iterLt
  have := b.goalIt
  omega

/-- effect of one turn of the loop -/
structure Turn (a b : LazyARA) (s gl : Nat) (ex : Bool) : Prop extends Fr a b where
  vOther : ∀ u, (ex = true → u ≠ s) → b.V u = a.V u
  vSelf : ex = true → b.V s = a.g s ∧ a.g s < a.v s ∧ a.isTrue s = true
  wasOpen : keyOf a.heap s ≠ none
  isMin : ∀ t k, keyOf a.heap t = some k → a.keyFor s ≤ k
  cl : ∀ u, b.closed u ↔ (ex = true ∧ u = s) ∨ a.closed u
  notCl : ¬ a.closed s
  noGoal : ex = true → s ≠ gl
  new : ∀ u, ¬ a.acc u → b.acc u → b.h u = a.hOf u
  epGoal : b.epar gl = a.epar gl

theorem loopCond_iff {st : LazyARA} {gl : Nat} : st.loopCond gl = true ↔
    st.heap.size ≠ 0 ∧ (st.heap.kat 1).k0 < 1000000000 ∧ (((st.g gl : Nat) : Int) > (st.heap.kat 1).k0 ∨ st.isTrue gl = false) ∧
      ((st.v gl : Nat) : Int) > (st.heap.kat 1).k0 := by
  unfold loopCond minKey Heap.getMinKey Heap.isEmpty
  by_cases z : st.heap.size = 0
  · simp [z]
  · simp only [beq_iff_eq, z, if_false, Bool.and_eq_true, Bool.not_eq_true', beq_eq_false_iff_ne, ne_eq, not_false_eq_true,
      decide_eq_true_eq, true_and, Bool.or_eq_true, kat]
    constructor
    · rintro ⟨⟨h1, h2⟩, h3⟩; exact ⟨h1, h2, h3⟩
    · rintro ⟨h1, h2, h3⟩; exact ⟨⟨h1, h2⟩, h3⟩

theorem step_V {a b : LazyARA} (x : Step a b) (u : Nat) : b.V u = a.V u := by
  by_cases h : a.acc u
  · rw [V_acc h, V_acc (x.accM u h), x.vEq u h]
  · rw [V_stale h]
    by_cases h' : b.acc u
    · rw [V_acc h', (x.new u h h').1]
    · rw [V_stale h']

theorem step_closed {a b : LazyARA} (x : Step a b) (lt : a.iter < SHORT - 1) (u : Nat) : b.closed u ↔ a.closed u := by
  unfold closed
  constructor
  · rintro ⟨h1, h2⟩
    by_cases h : a.acc u
    · rw [x.itEq u h, x.iter] at h2; exact ⟨h, h2⟩
    · have := (x.new u h h1).2.1
      rw [x.iter] at h2; omega
  · rintro ⟨h1, h2⟩
    exact ⟨x.accM u h1, by rw [x.itEq u h1, x.iter]; exact h2⟩

theorem hv_fr {a b : LazyARA} {s0 gl : Nat} {H0 : Nat → Nat} (f : Fr a b) (new : ∀ u, ¬ a.acc u → b.acc u → b.h u = a.hOf u)
    (h0 : a.acc s0) (hg : a.acc gl) (h : Hv a s0 gl H0) : Hv b s0 gl H0 := by
  intro u hu
  by_cases q : a.acc u
  · rw [f.hEq u q, f.hOf]; exact h u q
  · rw [new u q hu, if_neg, f.hOf]
    rintro (rfl | rfl)
    · exact q h0
    · exact q hg

theorem step_spec {st : LazyARA} {s0 gl : Nat} {H0 : Nat → Nat} (P : Rel) (b : Base wf st s0 gl H0) (hc : st.loopCond gl = true) :
    OkOr st.step (fun r => Base wf r.2.2 s0 gl H0 ∧ Turn st r.2.2 r.1 gl r.2.1 ∧ (Low st → Opt wf st s0 P → Opt wf r.2.2 s0 P)) := by
  obtain ⟨hz, hm, hg, hvg⟩ := loopCond_iff.mp hc
  have hi := b.hinv
  unfold step
  cases e : st.heap.deleteMin with
  | error x => exfalso; unfold Heap.deleteMin at e; rw [if_neg hz] at e; cases e
  | ok r =>
    obtain ⟨s, h'⟩ := r
    simp only
    obtain ⟨b1, b2, _, b4, _, k, b5, b6, b7⟩ := deleteMin_spec hi.bp hi.ord e
    have hk : k = st.keyFor s := hi.keys s k (by simp) b5
    have so : keyOf st.heap s ≠ none := by rw [b5]; simp
    have as := hi.openAcc so
    have ni := hi.opn s so
    have kmin : (st.heap.kat 1).k0 = ((st.g s + ARA.infl st.D st.eps (st.h s) : Nat) : Int) := by rw [← b6, hk]; rfl
    have lt : st.g s < st.v s := by
      rcases hi.openLt s so with h | ⟨rfl, h, _⟩
      · exact h
      · rw [kmin] at hvg; omega
    have isMin : ∀ t k, keyOf st.heap t = some k → st.keyFor s ≤ k := by intro t k' h; rw [← hk]; exact b7 t k' h
    have sg : st.isTrue s = true → s ≠ gl := by
      rintro ht rfl
      rcases hg with h | h
      · rw [kmin] at h; omega
      · rw [ht] at h; cases h
    generalize hst1 : ({ st with heap := h' } : LazyARA) = st1
    have hE : st1.heap = h' := by rw [← hst1]
    have same : SameS st st1 := ⟨h', st.incons, st.inInc, hst1.symm⟩
    have stp := same.step
    have sd1 := same.sound b.sound
    have ko : ∀ u, u ≠ s → keyOf h' u = keyOf st.heap u := by intro u q; rw [b2, upd_other _ _ q]
    have ks : keyOf h' s = none := by rw [b2, upd_same]
    have hi1 : HInv st1 gl (some s) := by
      have nn : ∀ u, keyOf h' u ≠ none → u ≠ s := by rintro u h rfl; exact h ks
      rw [← hst1]
      refine ⟨b1, b4, ?_, hi.incAcc, hi.incNodup, hi.incFlag, ?_, ?_, hi.incLt, ?_, ?_, hi.inc, hi.iterLe, hi.iterLt⟩
      · intro u hu
        show keyOf h' u = none
        by_cases q : u = s
        · rw [q]; exact ks
        · rw [ko u q]; exact hi.staleH u hu
      · intro u k' hx hk'
        have hk' : keyOf h' u = some k' := hk'
        rw [ko u (fun c => hx (by rw [c]))] at hk'
        exact hi.keys u k' (by simp) hk'
      · intro u hu
        have hu : keyOf h' u ≠ none := hu
        rw [ko u (nn u hu)] at hu; exact hi.openLt u hu
      · intro u hx hu l
        show keyOf h' u ≠ none ∨ _
        rw [ko u (fun c => hx (by rw [c]))]; exact hi.ltIn u (by simp) hu l
      · intro u hu
        have hu : keyOf h' u ≠ none := hu
        rw [ko u (nn u hu)] at hu; exact hi.opn u hu
    have as1 : st1.acc s := by rw [← hst1]; exact as
    have nh1 : keyOf st1.heap s = none := by rw [hE]; exact ks
    have ni1 : st1.iterC s ≠ st1.iter := by rw [← hst1]; exact ni
    have q1 : QueueOk st1.Q wf := by rw [stp.Q]; exact b.q
    have pE1 : ∀ p s c, st1.E p s c → 1 ≤ c := by rw [stp.toFr.E]; exact b.posE
    have pos1 : ∀ p s c f, (s, c, f) ∈ st1.nbr p → 1 ≤ c := by rw [stp.toFr.nbr]; exact b.pos
    have gs : st1.g = st.g := by rw [← hst1]
    have vs : st1.v = st.v := by rw [← hst1]
    have ts : st1.isTrue = st.isTrue := by rw [← hst1]
    have notCl : ¬ st.closed s := fun h => ni h.2
    have low1 : Low st → Low st1 := by intro l; unfold Low; rw [stp.toFr.nbr, stp.toFr.tc]; exact l
    unfold visit
    rw [if_neg (by rw [gs, vs]; omega)]
    split
    next ht =>
      -- expansion
      have lt1 : st1.g s < st1.v s := by rw [gs, vs]; exact lt
      obtain ⟨m1, m2, m3⟩ := mark_spec P q1 pE1 sd1 hi1 as1 nh1 ni1 ht lt1
      have el := expandLoop_spec (wf := wf) (gl := gl) (x := s) P (st1.nbr s) (st := st1.mark s) q1 pos1 m1 m2 as1 (fun e h => h)
      have eqx : st1.expand s = expandLoop s (st1.nbr s) (st1.mark s) := rfl
      rw [eqx]
      cases e2 : expandLoop s (st1.nbr s) (st1.mark s) with
      | error x => rw [e2] at el; exact el
      | ok st2 =>
        rw [e2] at el
        have el : EvalPost wf (st1.mark s) s0 gl _ P st2 := el
        have fm : Fr st1 (st1.mark s) := ⟨rfl, rfl, rfl, rfl, rfl, rfl, rfl, rfl, rfl, rfl, rfl, rfl, rfl, rfl, fun _ h => h, fun _ _ => rfl, fun _ => .inl rfl⟩
        have fr : Fr st st2 := (stp.toFr.trans fm).trans el.step.toFr
        have sneg := sg (by rw [← ts]; exact ht)
        have new : ∀ u, ¬ st.acc u → st2.acc u → st2.h u = st.hOf u := by
          intro u h1 h2
          have h1' : ¬ (st1.mark s).acc u := by rw [← hst1]; exact h1
          rw [(el.step.new u h1' h2).2.2, (stp.toFr.trans fm).hOf]
        have aM : ∀ u, (st1.mark s).acc u ↔ st.acc u := by intro u; rw [← hst1]; exact Iff.rfl
        have vM : ∀ u, u ≠ s → (st1.mark s).V u = st.V u := by
          intro u q
          by_cases h : st.acc u
          · rw [V_acc h, V_acc ((aM u).mpr h)]
            show upd st1.v s _ u = _
            rw [upd_other _ _ q, vs]
          · rw [V_stale h, V_stale (fun c => h ((aM u).mp c))]
        have iM : ∀ u, (st1.mark s).closed u ↔ u = s ∨ st.closed u := by
          intro u
          unfold closed
          rw [aM]
          show _ ∧ upd st1.iterC s st1.iter u = st1.iter ↔ _
          rw [← hst1]
          by_cases q : u = s
          · subst q; simp [as]
          · rw [upd_other _ _ q]; simp [q]
        have gI : st2.iterC gl = SHORT - 1 := by
          rw [el.step.itEq gl ((aM gl).mpr b.accG)]
          show upd st1.iterC s _ gl = _
          rw [upd_other _ _ (Ne.symm sneg), ← hst1]; exact b.goalIt
        refine ⟨⟨?_, ?_, el.sound, el.hinv, fr.accM _ b.accG, gI, ?_⟩, ⟨fr, ?_, ?_, so, isMin, ?_, notCl, fun _ => sneg, new, ?_⟩, ?_⟩
        · show QueueOk st2.Q wf
          rw [fr.Q]; exact b.q
        · show ∀ p s c f, (s, c, f) ∈ st2.nbr p → 1 ≤ c
          rw [fr.nbr]; exact b.pos
        · exact hv_fr fr new b.sound.startAcc b.accG b.hv
        · intro u hu
          show st2.V u = _
          rw [step_V el.step, vM u (hu rfl)]
        · intro _
          show st2.V s = _ ∧ _
          rw [step_V el.step, V_acc ((aM s).mpr as)]
          refine ⟨?_, lt, by rw [← ts]; exact ht⟩
          show upd st1.v s (st1.g s) s = _
          rw [upd_same, gs]
        · intro u
          show st2.closed u ↔ _
          rw [step_closed el.step (by show st1.iter < _; rw [← hst1]; exact hi.iterLt), iM]; simp
        · show st2.epar gl = _
          rw [el.step.epEq gl ((aM gl).mpr b.accG)]
          show upd st1.epar s _ gl = _
          rw [upd_other _ _ (Ne.symm sneg), ← hst1]
        · intro low o
          exact el.opt (low1 low) (m3 (same.opt o))
    next ht =>
      have hf : st1.isTrue s = false := by simpa using ht
      have ev := evaluate_spec P q1 pE1 sd1 hi1 as1 nh1 ni1 hf
      cases e2 : st1.evaluate s with
      | error x => rw [e2] at ev; exact ev
      | ok st2 =>
        rw [e2] at ev
        have ev : EvalPost wf st1 s0 gl P P st2 := ev
        have st12 := stp.trans ev.step
        have fr : Fr st st2 := st12.toFr
        have new : ∀ u, ¬ st.acc u → st2.acc u → st2.h u = st.hOf u := fun u h1 h2 => (st12.new u h1 h2).2.2
        refine ⟨⟨?_, ?_, ev.sound, ev.hinv, fr.accM _ b.accG, ?_, ?_⟩, ⟨fr, ?_, ?_, so, isMin, ?_, notCl, ?_, new, ?_⟩, ?_⟩
        · show QueueOk st2.Q wf
          rw [fr.Q]; exact b.q
        · show ∀ p s c f, (s, c, f) ∈ st2.nbr p → 1 ≤ c
          rw [fr.nbr]; exact b.pos
        · show st2.iterC gl = _
          rw [st12.itEq gl b.accG]; exact b.goalIt
        · exact hv_fr fr new b.sound.startAcc b.accG b.hv
        · intro u _
          exact step_V st12 u
        · intro h; cases h
        · intro u
          show st2.closed u ↔ _
          rw [step_closed st12 hi.iterLt]; simp
        · intro h; cases h
        · exact st12.epEq gl b.accG
        · intro low o
          exact ev.opt (low1 low) (same.opt o)

/-! ### the bound -/

/-- the goal is never expanded, so edges out of it do not count -/
def pg (gl : Nat) : Rel := fun u _ _ => u = gl
/-- edges not leaving the goal -/
def Eg (st : LazyARA) (gl : Nat) : Rel := fun u t c => u ≠ gl ∧ st.E u t c


/-- a bound by which inflated heuristic values may decrease -/
structure EpsLe (st : LazyARA) (E : ARA.Bnd) : Prop where
  one : E.M ≤ E.N
  le : ∀ s t c, st.E s t c → E.M * ARA.infl st.D st.eps (st.hOf s) ≤ E.M * ARA.infl st.D st.eps (st.hOf t) + E.N * c

/-- every state expanded in this pass got a value within the bound -/
def J (st : LazyARA) (s0 gl : Nat) : Prop :=
  ∀ E, EpsLe st E → ∀ s c, st.closed s → RWalk (st.Eg gl) s0 s c → E.M * st.V s ≤ E.N * c

theorem rep_B {st : LazyARA} {s0 gl u t c : Nat} (o : Opt wf st s0 (pg gl)) (pos : ∀ p s c, st.E p s c → 1 ≤ c) (ee : st.E u t c)
    (au : st.acc u) (lt : st.v u < INF) (ng : u ≠ gl) : st.B t ≤ st.v u + c := by
  rcases o.rep u t c au lt ee with h | ⟨a, h⟩
  · exact absurd h ng
  · rw [B_acc a]
    rcases h with h | h | h | ⟨h, e, he, h'⟩
    · omega
    · omega
    · have := o.under t u a h.1 h.2.1 (by rw [h.2.2]; have := pos _ _ _ ee; omega)
      rw [h.2.2] at this
      omega
    · have := o.ord t a h e he
      omega

theorem walk_front {st : LazyARA} {s0 gl : Nat} {H0 : Nat → Nat} (b : Base wf st s0 gl H0) (o : Opt wf st s0 (pg gl)) (j : J st s0 gl)
    {E : ARA.Bnd} (he : EpsLe st E) {n c : Nat} (w : RWalk (st.Eg gl) s0 n c) :
    E.M * st.B n ≤ E.N * c ∨ ∃ o co r, keyOf st.heap o ≠ none ∧ E.M * st.g o ≤ E.N * co ∧ co + r = c ∧
      E.M * ARA.infl st.D st.eps (st.hOf o) ≤ E.M * ARA.infl st.D st.eps (st.hOf n) + E.N * r := by
  induction w with
  | nil => left; rw [B_acc b.sound.startAcc, b.sound.startG]; simp
  | @snoc n t c d w hm ih =>
    have hcons := he.le n t d hm.2
    have e1 : E.N * (c + d) = E.N * c + E.N * d := by ring
    have e2 : E.M * d ≤ E.N * d := Nat.mul_le_mul_right d he.one
    rcases ih with ih | ⟨o, co, r, h1, h2, h3, h4⟩
    · by_cases hv : E.M * st.V n ≤ E.N * c
      · left
        by_cases a : st.acc n
        · rw [V_acc a] at hv
          by_cases lt : st.v n < INF
          · have := Nat.mul_le_mul_left E.M (rep_B o b.posE hm.2 a lt hm.1)
            rw [Nat.mul_add] at this
            omega
          · have := Nat.mul_le_mul_left E.M (Nat.le_trans (B_inf b.sound t) (Nat.le_of_not_lt lt))
            omega
        · rw [V_stale a] at hv
          have := Nat.mul_le_mul_left E.M (B_inf b.sound t)
          omega
      · have lt : st.B n < st.V n := by
          by_contra q
          exact hv (Nat.le_trans (Nat.mul_le_mul_left E.M (Nat.le_of_not_lt q)) ih)
        have a : st.acc n := by
          by_contra na; rw [B_stale na, V_stale na] at lt; omega
        rw [B_acc a, V_acc a] at lt
        have gv : st.g n < st.v n := by omega
        rw [B_acc a] at ih
        have mn : min (st.g n) (st.v n) = st.g n := by omega
        rw [mn] at ih
        rcases b.hinv.ltIn n (by simp) a gv with hO | hI
        · right
          exact ⟨n, c, d, hO, ih, rfl, hcons⟩
        · exact absurd (j E he n c ⟨a, b.hinv.inc n hI⟩ w) hv
    · right; exact ⟨o, co, r + d, h1, h2, by omega, by rw [Nat.mul_add]; omega⟩

/-- as long as the start is in OPEN nothing else is (unless start and goal coincide) -/
theorem start_alone {st : LazyARA} {s0 gl : Nat} {H0 : Nat → Nat} (b : Base wf st s0 gl H0) (o : Opt wf st s0 (pg gl)) (n : s0 ≠ gl)
    (h : keyOf st.heap s0 ≠ none) : ∀ u, st.acc u → u ≠ s0 → st.g u = INF ∧ keyOf st.heap u = none := by
  have v0 : st.v s0 = INF := by
    have := b.sound.startG
    rcases b.hinv.openLt s0 h with h | ⟨h, _⟩
    · rcases b.sound.startV with h' | h' <;> omega
    · exact absurd h n
  have vI : ∀ u, st.acc u → st.v u = INF := by
    intro u a
    have := b.sound.vInf u a
    by_contra c
    have := o.root u a (by omega)
    omega
  have gI : ∀ u, st.acc u → u ≠ s0 → ¬ st.g u < INF := by
    intro u a q lt
    cases ht : st.isTrue u with
    | true =>
      obtain ⟨p, c, _, a3, _, a5⟩ := b.sound.truth u a ht lt q
      have := vI p a3
      omega
    | false =>
      obtain ⟨_, p, lc, _, a3, _, a5⟩ := b.sound.untrue u a ht
      have := vI p a3
      omega
  intro u a q
  have g1 := gI u a q
  have v1 := vI u a
  refine ⟨?_, ?_⟩
  · rcases b.sound.gCase u a with h | h | h <;> omega
  · by_contra c
    rcases b.hinv.openLt u c with h' | ⟨_, _, h'⟩
    · omega
    · omega

end Sbpl.LazyARA
