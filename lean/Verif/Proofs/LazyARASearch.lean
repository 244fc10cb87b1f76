import Verif.Proofs.LazyARAFin
/-! Lazy ARA*: prepareNextSearchIteration, the main loop, GetSearchPath. -/

namespace Sbpl.LazyARA
open LazySpec Heap

variable {wf : (LazyElem → Nat) → List LazyElem → Prop}

/-- what a whole search leaves alone -/
structure FrS (a b : LazyARA) : Prop where
  env : b.env = a.env
  Q : b.Q = a.Q
  fwd : b.fwd = a.fwd
  D : b.D = a.D
  num : b.num = a.num
  initEps : b.initEps = a.initEps
  finalEps : b.finalEps = a.finalEps
  decEps : b.decEps = a.decEps
  first : b.first = a.first
  goalId : b.goalId = a.goalId
  startId : b.startId = a.startId
  rnE : ∀ s, b.rn s = a.rn s ∨ b.rn s = a.num

theorem FrS.refl (a : LazyARA) : FrS a a := ⟨rfl, rfl, rfl, rfl, rfl, rfl, rfl, rfl, rfl, rfl, rfl, fun _ => .inl rfl⟩

theorem FrS.trans {a b c : LazyARA} (x : FrS a b) (y : FrS b c) : FrS a c := by
  constructor
  all_goals first
    | (intro s
       have h1 := x.rnE s
       have h2 := y.rnE s
       rw [x.num] at h2
       rcases h2 with h2 | h2
       · rw [h2]; exact h1
       · exact .inr h2)
    | simp only [x.env, y.env, x.Q, y.Q, x.fwd, y.fwd, x.D, y.D, x.num, y.num,
        x.initEps, y.initEps, x.finalEps, y.finalEps, x.decEps, y.decEps, x.first, y.first, x.goalId, y.goalId, x.startId, y.startId]

theorem Fr.toFrS {a b : LazyARA} (f : Fr a b) : FrS a b :=
  ⟨f.env, f.Q, f.fwd, f.D, f.num, f.initEps, f.finalEps, f.decEps, f.first, f.goalId, f.startId, f.rnE⟩

theorem FrS.nbr {a b : LazyARA} (f : FrS a b) : b.nbr = a.nbr := by funext s; simp only [LazyARA.nbr, f.env, f.fwd]
theorem FrS.tc {a b : LazyARA} (f : FrS a b) : b.trueCost = a.trueCost := by funext s t; simp only [LazyARA.trueCost, f.env, f.fwd]
theorem FrS.E {a b : LazyARA} (f : FrS a b) : b.E = a.E := by unfold LazyARA.E; rw [f.nbr, f.tc]
theorem FrS.hOf {a b : LazyARA} (f : FrS a b) : b.hOf = a.hOf := by funext s; simp only [LazyARA.hOf, f.env, f.fwd]

/-! ### prepareNextSearchIteration -/

theorem rekey_spec (st : LazyARA) (arr : Nat → HElem CKey) (n : Nat) : ∀ i, rekey st arr n i =
    if 1 ≤ i ∧ i ≤ n then ⟨(arr i).st, ⟨((st.g (arr i).st + ARA.infl st.D st.eps (st.h (arr i).st) : Nat) : Int),
      (arr i).key.k1⟩⟩ else arr i := by
  induction n with
  | zero => intro i; rw [if_neg (by omega)]; rfl
  | succ n ih =>
    intro i
    unfold rekey
    simp only
    by_cases q : i = n + 1
    · subst q
      have e : rekey st arr n (n + 1) = arr (n + 1) := by rw [ih, if_neg (by omega)]
      rw [upd_same, e, if_pos (by omega)]
    · rw [upd_other _ _ q, ih]
      by_cases b : 1 ≤ i ∧ i ≤ n
      · rw [if_pos b, if_pos (by omega)]
      · rw [if_neg b, if_neg (by omega)]

structure DumpPost (st : LazyARA) (l : List Nat) (st' : LazyARA) : Prop where
  same : ∃ h f, st' = { st with heap := h, incons := [], inInc := f }
  bp : BP st'.heap
  ord : Ordered st'.heap
  k1 : ∀ u k, keyOf st'.heap u = some k → k.k1 = 0
  mem : ∀ u, keyOf st'.heap u ≠ none ↔ keyOf st.heap u ≠ none ∨ u ∈ l
  flag : ∀ u, st'.inInc u = true ↔ st.inInc u = true ∧ u ∉ l

theorem dump_spec (l : List Nat) : ∀ {st : LazyARA}, BP st.heap → Ordered st.heap → (∀ u k, keyOf st.heap u = some k → k.k1 = 0) → l.Nodup →
    (∀ u ∈ l, keyOf st.heap u = none) → OkOr (dumpIncons l st) (DumpPost st l) := by
  induction l with
  | nil =>
    intro st b o k _ _
    exact ⟨⟨st.heap, st.inInc, rfl⟩, b, o, k, by simp, by simp⟩
  | cons s l ih =>
    intro st b o k nd nm
    unfold dumpIncons
    cases e : st.heap.insert s (st.keyFor s) with
    | error x => exact congrArg Err.heap (ARA.heap_insert_err (nm s List.mem_cons_self) e)
    | ok h =>
      obtain ⟨b1, b2, _, b4, _⟩ := Heap.insert_spec b e
      rw [List.nodup_cons] at nd
      have ks : keyOf h s = some (st.keyFor s) := by rw [b2, upd_same]
      have ko : ∀ u, u ≠ s → keyOf h u = keyOf st.heap u := by intro u q; rw [b2, upd_other _ _ q]
      refine OkOr.imp (ih (st := { st with heap := h, inInc := upd st.inInc s false }) b1 (b4 o) ?_ nd.2 ?_) ?_
      · intro u k' hk
        have hk : keyOf h u = some k' := hk
        by_cases q : u = s
        · rw [q, ks] at hk; cases hk; rfl
        · rw [ko u q] at hk; exact k u k' hk
      · intro u hu
        have q : u ≠ s := by rintro rfl; exact nd.1 hu
        show keyOf h u = none
        rw [ko u q]; exact nm u (List.mem_cons_of_mem _ hu)
      · rintro st' ⟨⟨h', f, e1⟩, d2, d3, d4, d5, d6⟩
        refine ⟨⟨h', f, by rw [e1]⟩, d2, d3, d4, ?_, ?_⟩
        · intro u
          rw [d5]
          show keyOf h u ≠ none ∨ _ ↔ _
          by_cases q : u = s
          · rw [q, ks]; simp
          · rw [ko u q]; simp [q]
        · intro u
          rw [d6]
          show upd st.inInc s false u = true ∧ _ ↔ _
          by_cases q : u = s
          · rw [q, upd_same]; simp
          · rw [upd_other _ _ q]; simp [q]

def epsNext (st : LazyARA) : Nat := if st.eps - st.decEps < st.finalEps then st.finalEps else st.eps - st.decEps

structure PrepPost (st : LazyARA) (gl : Nat) (st' : LazyARA) : Prop where
  same : ∃ h f, st' = { st with heap := h, incons := [], inInc := f, eps := st.epsNext, iter := st.iter + 1 }
  hinv : HInv st' gl none

theorem prepare_spec {st : LazyARA} {gl : Nat} (hi : HInv st gl none) (it : st.iter + 1 < SHORT - 1) : OkOr st.prepareNext (PrepPost st gl) := by
  unfold prepareNext
  have ds := dump_spec st.incons (st := { st with eps := st.epsNext }) hi.bp hi.ord
    (fun u k hk => by rw [hi.keys u k (by simp) hk]; rfl) hi.incNodup
    (fun u hu => by
      show keyOf st.heap u = none
      by_contra c
      exact hi.opn u c (hi.inc u hu))
  have e0 : ({ st with eps := if st.eps - st.decEps < st.finalEps then st.finalEps else st.eps - st.decEps } : LazyARA) = { st with eps := st.epsNext } := rfl
  rw [e0]
  cases e : dumpIncons st.incons { st with eps := st.epsNext } with
  | error x => rw [e] at ds; exact ds
  | ok st1 =>
    rw [e] at ds
    obtain ⟨⟨h, f, e1⟩, d2, d3, d4, d5, d6⟩ := (ds : DumpPost _ _ _)
    simp only
    generalize hh : ({ st1.heap with arr := st1.rekey st1.heap.arr st1.heap.size } : Heap CKey) = h1
    have a1 : h1.arr = st1.rekey st1.heap.arr st1.heap.size := by rw [← hh]
    have a2 : h1.size = st1.heap.size := by rw [← hh]
    have a3 : h1.idx = st1.heap.idx := by rw [← hh]
    have sts : ∀ i, (h1.arr i).st = (st1.heap.arr i).st := by
      intro i; rw [a1, rekey_spec]; split <;> rfl
    have b1 : BP h1 := by
      constructor
      · intro i i1 i2
        rw [sts, a3]; exact d2.fwd i i1 (by rw [← a2]; exact i2)
      · intro s hs
        rw [a3] at hs ⊢
        obtain ⟨x, y⟩ := d2.bwd s hs
        exact ⟨by rw [a2]; exact x, by rw [sts]; exact y⟩
    obtain ⟨m1, m2, m3⟩ := makeHeap_spec b1
    have kk : ∀ s, keyOf h1.makeHeap s = keyOf h1 s := fun s => m2.key s
    have kn : ∀ s, keyOf h1.makeHeap s ≠ none ↔ keyOf st.heap s ≠ none ∨ s ∈ st.incons := by
      intro s
      rw [kk, ← d5 s, ne_eq, ne_eq, ARA.keyOf_none, ARA.keyOf_none, a3]
    have itE : (st1.iter + 1) % SHORT = st.iter + 1 := by
      rw [e1]
      exact Nat.mod_eq_of_lt (by show st.iter + 1 < SHORT; omega)
    have stE : ({ st1 with heap := h1.makeHeap, iter := (st1.iter + 1) % SHORT } : LazyARA) =
        { st with heap := h1.makeHeap, incons := [], inInc := f, eps := st.epsNext, iter := st.iter + 1 } := by
      rw [itE, e1]
    have inE : st1.inInc = f := by rw [e1]
    have accK : ∀ s, keyOf h1.makeHeap s ≠ none → st.acc s := by
      intro s hs
      rcases (kn s).mp hs with h | h
      · exact hi.openAcc h
      · exact hi.incAcc s h
    refine ⟨⟨h1.makeHeap, f, stE⟩, ?_⟩
    rw [stE]
    refine ⟨m1, m3, ?_, ?_, List.nodup_nil, ?_, ?_, ?_, ?_, ?_, ?_, ?_, ?_, it⟩
    · intro s hs
      by_contra c
      exact hs (accK s c)
    · intro s hs; cases hs
    · intro s hs
      show f s = true ↔ s ∈ []
      rw [← inE, d6]
      have := hi.incFlag s hs
      constructor
      · rintro ⟨h, h'⟩; exact absurd (this.mp h) h'
      · intro h; cases h
    · intro s k _ hk
      have hk : keyOf h1.makeHeap s = some k := hk
      rw [kk] at hk
      simp only [keyOf, kat, a3] at hk
      split at hk
      · cases hk
      next ix =>
        cases hk
        obtain ⟨x, y⟩ := d2.bwd s ix
        have := d4 s (st1.heap.kat (st1.heap.idx s)) (by simp [keyOf, ix])
        rw [a1, rekey_spec, if_pos ⟨by omega, x⟩, y]
        simp only [kat] at this
        rw [this, e1]; rfl
    · intro s hs
      rcases (kn s).mp hs with h | h
      · exact hi.openLt s h
      · exact .inl (hi.incLt s h)
    · intro s hs; cases hs
    · intro s hx hs l
      left
      exact (kn s).mpr (hi.ltIn s hx hs l)
    · intro s hs
      show st.iterC s ≠ st.iter + 1
      have := hi.iterLe s (accK s hs)
      omega
    · intro s hs; cases hs
    · intro s hs
      show st.iterC s ≤ st.iter + 1 ∨ _
      rcases hi.iterLe s hs with h | h
      · exact .inl (by omega)
      · exact .inr h

/-! ### the main loop -/

/-- a bound by which heuristic values inflated by `e` may decrease -/
def EpsAt (st : LazyARA) (e : Nat) (E : ARA.Bnd) : Prop :=
  E.M ≤ E.N ∧ ∀ s t c, st.E s t c → E.M * ARA.infl st.D e (st.hOf s) ≤ E.M * ARA.infl st.D e (st.hOf t) + E.N * c

/-- the goal's value respects the eps reported -/
def Good (st : LazyARA) (s0 gl : Nat) : Prop :=
  ∀ e, st.epsSat = some e → ∀ E, EpsAt st e E → ∀ c, RWalk st.E s0 gl c → E.M * st.v gl ≤ E.N * c

structure Enter (wf : (LazyElem → Nat) → List LazyElem → Prop) (st : LazyARA) (s0 gl : Nat) (H0 : Nat → Nat) (n : Nat) : Prop where
  base : Base wf st s0 gl H0
  ep : EpG st gl
  goalT : st.isTrue gl = true ∨ st.v gl < INF
  j : J st s0 gl
  iter : st.iter + n < SHORT - 1

structure SLPost (wf : (LazyElem → Nat) → List LazyElem → Prop) (st : LazyARA) (s0 gl : Nat) (H0 : Nat → Nat) (bs : List Nat)
    (r : LazyARA × Bool × List Pass) : Prop where
  frs : FrS st r.1
  bp : BP r.1.heap
  tail : Tail r.1 s0 gl (∃ p ∈ r.2.2, p.out = true)
  vMono : r.1.v gl ≤ st.v gl
  fail : r.2.1 = false → r.1.g gl = INF ∧ r.1.v gl = INF
  passes : ∀ p ∈ r.2.2, p.tr.Nodup ∧ gl ∉ p.tr
  some : st.notDone = true → bs ≠ [] → r.2.2 ≠ []
  one : st.first = true → ∀ p ∈ r.2.2, p.out = false
  len : r.2.2.length ≤ bs.length
  vg : r.2.2 ≠ [] → (∀ p ∈ r.2.2, p.out = false) → r.1.v gl = r.1.g gl
  bound1 : r.2.2 ≠ [] → (∀ p ∈ r.2.2, p.out = false) → Low st → Opt wf st s0 (pg gl) → st.hOf gl = 0 → ARA.infl st.D st.eps (H0 s0) < INF →
    ∀ E, EpsLe st E → ∀ c, RWalk st.E s0 gl c → E.M * r.1.v gl ≤ E.N * c
  boundE : AllTrue st → Low st → Opt wf st s0 (pg gl) → st.hOf gl = 0 → (∃ X, st.eps ≤ X ∧ st.finalEps ≤ X ∧ ARA.infl st.D X (H0 s0) < INF) →
    Good st s0 gl → Good r.1 s0 gl

theorem infl_le {D e e' h : Nat} (x : e ≤ e') : ARA.infl D e h ≤ ARA.infl D e' h := Nat.div_le_div_right (Nat.mul_le_mul_right h x)

theorem searchLoop_spec {s0 gl : Nat} {H0 : Nat → Nat} (hg : H0 gl = 0) (bs : List Nat) : ∀ {st : LazyARA}, Enter wf st s0 gl H0 bs.length →
    OkOrT st.first (searchLoop gl bs st) (SLPost wf st s0 gl H0 bs) := by
  induction bs with
  | nil =>
    intro st en
    have stop : SLPost wf st s0 gl H0 [] (st, true, []) := by
      refine ⟨FrS.refl st, en.base.hinv.bp, ?_, Nat.le_refl _, by simp, by simp, by simp, by simp, by simp, by simp, by simp, fun _ _ _ _ _ h => h⟩
      rcases en.goalT with h | h
      · exact tail_of_base en.base en.ep (.inl h)
      · have t := tail_of_base (out := True) en.base en.ep (.inr trivial)
        refine ⟨t.gInf, t.vInf, t.ptr, ?_, ?_, t.start⟩
        · intro n l
          obtain ⟨p, c, h1, h2, h3, h4⟩ := en.base.sound.vPtr gl en.base.accG l n
          exact ⟨p, h1, h2, .inl ⟨c, h3, h4⟩⟩
        · intro _ l; have l : st.v gl = INF := l; omega
    unfold searchLoop
    split
    next h => exact .inr ⟨rfl, h.2⟩
    next h => exact stop
  | cons n bs ih =>
    intro st en
    unfold searchLoop
    split
    next nd =>
      have ps := improvePath_spec n en.base en.ep hg
      cases e : st.improvePath gl n with
      | error x => rw [e] at ps; exact ps
      | ok r =>
        rw [e] at ps
        obtain ⟨st1, ret, out, tr⟩ := r
        have pp : PassPost wf st s0 gl H0 (st1, ret, out, tr) := ps
        simp only
        -- recording the eps changes nothing else
        obtain ⟨st2, hst2⟩ : ∃ st2, st2 = (if ret = 1 then { st1 with epsSat := some st1.eps } else st1) := ⟨_, rfl⟩
        have s2 : ∃ x, st2 = { st1 with epsSat := x } := by
          rw [hst2]; split
          · exact ⟨_, rfl⟩
          · exact ⟨st1.epsSat, rfl⟩
        obtain ⟨xs, s2⟩ := s2
        rw [← hst2]
        have tail2 : Tail st2 s0 gl (out = true) := by rw [s2]; exact ⟨pp.tail.gInf, pp.tail.vInf, pp.tail.ptr, pp.tail.goalV, pp.tail.goalG, pp.tail.start⟩
        have fr2 : FrS st st2 := by
          have f := pp.fr.toFrS
          rw [s2]
          exact ⟨f.env, f.Q, f.fwd, f.D, f.num, f.initEps, f.finalEps, f.decEps, f.first, f.goalId, f.startId, f.rnE⟩
        have hinv2 : HInv st2 gl none := by
          have h := pp.hinv
          rw [s2]
          exact ⟨h.bp, h.ord, h.staleH, h.incAcc, h.incNodup, h.incFlag, h.keys, h.openLt, h.incLt, h.ltIn, h.opn, h.inc, h.iterLe, h.iterLt⟩
        have v2 : st2.v = st1.v := by rw [s2]
        have g2 : st2.g = st1.g := by rw [s2]
        have vm2 : st2.v gl ≤ st.v gl := by rw [v2]; exact pp.vMono
        have vIn : st2.v gl ≤ INF := tail2.vInf
        have zero : ret = 0 → st2.g gl = INF ∧ st2.v gl = INF := by
          intro h
          have h1 : st1.g gl = INF := pp.zero h
          have h2 : st1.g gl ≤ st1.v gl := pp.gLeV
          rw [g2]
          refine ⟨h1, ?_⟩
          rw [v2] at vIn ⊢
          omega
        have vgq : out = false → st2.v gl = st2.g gl := by
          intro ho
          have r1 : ret ≤ 2 := pp.range
          have r2 : ret ≠ 2 := fun h => by have := pp.two h; rw [ho] at this; cases this
          by_cases h0 : ret = 0
          · rw [(zero h0).1, (zero h0).2]
          · rw [v2, g2]; exact pp.gv (show ret = 1 by omega)
        have b1 : out = false → Low st → Opt wf st s0 (pg gl) → st.hOf gl = 0 → ARA.infl st.D st.eps (H0 s0) < INF →
            ∀ E, EpsLe st E → ∀ c, RWalk st.E s0 gl c → E.M * st2.v gl ≤ E.N * c := by
          intro ho low o h0 hs E he c w
          rw [vgq ho, g2]
          exact pp.bound ho low o en.j h0 hs E he c w
        have bE : AllTrue st → Low st → Opt wf st s0 (pg gl) → st.hOf gl = 0 →
            (∃ X, st.eps ≤ X ∧ st.finalEps ≤ X ∧ ARA.infl st.D X (H0 s0) < INF) → Good st s0 gl → Good st2 s0 gl := by
          rintro at' low o h0 ⟨X, x1, _, x3⟩ gd e he E hE c w
          rw [fr2.E] at w
          have hE' : EpsAt st e E := by unfold EpsAt at hE ⊢; rw [fr2.E, fr2.D, fr2.hOf] at hE; exact hE
          by_cases h1 : ret = 1
          · have ho : out = false := by
              cases ho : out with
              | false => rfl
              | true => have : ret = 2 := pp.cut ho at'; omega
            rw [hst2, if_pos h1] at he
            have ee : e = st.eps := by
              have : st1.eps = e := Option.some.inj he
              rw [← this]; exact pp.fr.eps
            subst ee
            exact b1 ho low o h0 (Nat.lt_of_le_of_lt (infl_le x1) x3) E ⟨hE'.1, hE'.2⟩ c w
          · rw [hst2, if_neg h1] at he
            have he' : st.epsSat = some e := by rw [← he]; exact pp.fr.epsSat.symm
            exact Nat.le_trans (Nat.mul_le_mul_left _ vm2) (gd e he' E hE' c w)
        have one1 : ∀ {P : Pass → Prop}, P ⟨ret, out, tr⟩ → ∀ p ∈ [(⟨ret, out, tr⟩ : Pass)], P p := by
          intro P h p hp
          rw [List.mem_singleton] at hp; rw [hp]; exact h
        have single : ∀ ok : Bool, (ok = false → ret = 0) → SLPost wf st s0 gl H0 (n :: bs) (st2, ok, [⟨ret, out, tr⟩]) := by
          intro ok hok
          refine ⟨fr2, hinv2.bp, tail2.mono (fun h => ⟨_, List.mem_singleton.mpr rfl, h⟩), vm2, fun h => zero (hok h), one1 ⟨pp.nodup, pp.noGoal⟩,
            by simp, ?_, by simp, ?_, ?_, bE⟩
          · intro hf
            refine one1 ?_
            show out = false
            cases ho : out with
            | false => rfl
            | true => have := pp.notFirst ho; rw [hf] at this; cases this
          · intro _ h
            exact vgq (h _ (List.mem_singleton.mpr rfl))
          · intro _ h
            exact b1 (h _ (List.mem_singleton.mpr rfl))
        split
        next h0 => exact single false (fun _ => h0)
        next h0 =>
          split
          next h1 => exact single true (fun h => by cases h)
          next h1 =>
            have r1 : ret = 1 := by
              have : ret ≤ 2 := pp.range
              omega
            have nf : st2.first ≠ true := fun h => h1 (.inl h)
            have nf' : st.first ≠ true := by rw [← fr2.first]; exact nf
            have iE : st2.iter = st.iter := by rw [s2]; exact pp.fr.iter
            have it := en.iter
            simp only [List.length_cons] at it
            have pr := prepare_spec hinv2 (by rw [iE]; omega)
            cases e3 : st2.prepareNext with
            | error x => rw [e3] at pr; exact .inl pr
            | ok st3 =>
              rw [e3] at pr
              obtain ⟨⟨h3, f3, s3⟩, hinv3⟩ := (pr : PrepPost _ _ _)
              simp only
              have fr3 : FrS st2 st3 := by
                rw [s3]; exact ⟨rfl, rfl, rfl, rfl, rfl, rfl, rfl, rfl, rfl, rfl, rfl, fun _ => .inl rfl⟩
              have fr03 := fr2.trans fr3
              have v3 : st3.v = st2.v := by rw [s3]
              have g3 : st3.g = st2.g := by rw [s3]
              have tail3 : Tail st3 s0 gl (out = true) := by rw [s3]; exact ⟨tail2.gInf, tail2.vInf, tail2.ptr, tail2.goalV, tail2.goalG, tail2.start⟩
              have good3 : Good st2 s0 gl → Good st3 s0 gl := by rw [s3]; exact fun h => h
              split
              next ho =>
                refine ⟨fr03, hinv3.bp, tail3.mono (fun h => ⟨_, List.mem_singleton.mpr rfl, h⟩), ?_, by simp, one1 ⟨pp.nodup, pp.noGoal⟩,
                  by simp, fun h => absurd h nf', by simp, ?_, ?_, fun a b c d e f => good3 (bE a b c d e f)⟩
                · show st3.v gl ≤ _
                  rw [v3]; exact vm2
                · intro _ h
                  have h : out = false := h _ (List.mem_singleton.mpr rfl)
                  rw [ho] at h; cases h
                · intro _ h
                  have h : out = false := h _ (List.mem_singleton.mpr rfl)
                  rw [ho] at h; cases h
              next ho =>
                have ho : out = false := by simpa using ho
                obtain ⟨bs1, on⟩ := pp.next ho
                simp only at bs1 on
                have hv3 : Hv st3 s0 gl H0 := by
                  have := bs1.hv
                  rw [s3, s2]; exact this
                have sd3 : Sound st3 s0 := by
                  have i := bs1.sound
                  rw [s3, s2]
                  exact ⟨i.startAcc, i.startG, i.startT, i.startV, i.vInf, i.gCase, i.untrue, i.truth,
                    fun s hs e he => ⟨(i.elem s hs e he).acc, (i.elem s hs e he).pos, (i.elem s hs e he).lt, (i.elem s hs e he).tru, (i.elem s hs e he).lzy⟩,
                    i.clear, i.vPtr⟩
                have base3 : Base wf st3 s0 gl H0 := by
                  refine ⟨?_, ?_, sd3, hinv3, ?_, ?_, hv3⟩
                  · rw [fr03.Q]; exact en.base.q
                  · rw [fr03.nbr]; exact en.base.pos
                  · rw [s3, s2]; exact bs1.accG
                  · rw [s3, s2]; exact bs1.goalIt
                have gtr : st3.isTrue gl = true := by
                  cases ht : st3.isTrue gl with
                  | true => rfl
                  | false =>
                    have lt := (sd3.untrue gl base3.accG ht).1
                    rw [v3, g3] at lt
                    have := vgq ho
                    omega
                have it3 : st3.iter = st.iter + 1 := by rw [s3]; show st2.iter + 1 = _; rw [iE]
                have j3 : J st3 s0 gl := by
                  rintro E _ s c ⟨hc1, hc2⟩ _
                  exfalso
                  rw [it3] at hc2
                  have a2 : st2.acc s := by rw [s3] at hc1; exact hc1
                  have := hinv2.iterLe s a2
                  rw [iE] at this
                  rw [s3] at hc2
                  have hc2 : st2.iterC s = st.iter + 1 := hc2
                  omega
                have en3 : Enter wf st3 s0 gl H0 bs.length := by
                  refine ⟨base3, ?_, .inl gtr, j3, by rw [it3]; omega⟩
                  have := pp.epg
                  unfold EpG at this ⊢
                  rw [s3, s2]; exact this
                have ih' := ih en3
                have ff : st3.first = st.first := fr03.first
                rw [ff] at ih'
                cases e4 : searchLoop gl bs st3 with
                | error x => rw [e4] at ih'; exact ih'
                | ok r =>
                  rw [e4] at ih'
                  obtain ⟨st4, ok, pl⟩ := r
                  have lp : SLPost wf st3 s0 gl H0 bs (st4, ok, pl) := ih'
                  have vm4 : st4.v gl ≤ st2.v gl := by rw [← v3]; exact lp.vMono
                  refine ⟨fr03.trans lp.frs, lp.bp, lp.tail.mono (fun ⟨p, h1, h2⟩ => ⟨p, List.mem_cons_of_mem _ h1, h2⟩), ?_, lp.fail, ?_,
                    by simp, fun h => absurd h nf', ?_, ?_, ?_, ?_⟩
                  · show st4.v gl ≤ _
                    omega
                  · intro p hp
                    rcases List.mem_cons.mp hp with rfl | hp
                    · exact ⟨pp.nodup, pp.noGoal⟩
                    · exact lp.passes p hp
                  · have := lp.len
                    simp only [List.length_cons] at this ⊢
                    omega
                  · intro _ h
                    show st4.v gl = st4.g gl
                    by_cases q : pl = []
                    · -- the loop stopped at once
                      subst q
                      have : st4 = st3 := by
                        cases bs with
                        | nil =>
                          unfold searchLoop at e4
                          split at e4
                          · cases e4
                          · cases e4; rfl
                        | cons n' bs' =>
                          by_cases nd3 : st3.notDone = true
                          · exact absurd rfl (lp.some nd3 (by simp))
                          · unfold searchLoop at e4
                            rw [if_neg nd3] at e4
                            cases e4; rfl
                      rw [this, v3, g3]; exact vgq ho
                    · exact lp.vg q (fun p hp => h p (List.mem_cons_of_mem _ hp))
                  · intro _ h low o h0 hs E he c w
                    exact Nat.le_trans (Nat.mul_le_mul_left _ vm4) (b1 ho low o h0 hs E he c w)
                  · rintro at' low o h0 ⟨X, x1, x2, x3⟩ gd
                    refine lp.boundE ?_ ?_ ?_ ?_ ⟨X, ?_, ?_, ?_⟩ (good3 (bE at' low o h0 ⟨X, x1, x2, x3⟩ gd))
                    · unfold AllTrue; rw [fr03.nbr]; exact at'
                    · unfold Low; rw [fr03.nbr, fr03.tc]; exact low
                    · have o1 := on at' low o
                      have atA : st1.AllTrue := by unfold AllTrue; rw [pp.fr.nbr]; exact at'
                      rw [s3, s2]
                      exact ⟨o1.rep, o1.ord, o1.wfq, o1.under, o1.elemUnder, .inr atA, o1.root⟩
                    · rw [fr03.hOf]; exact h0
                    · have : st3.eps = st2.epsNext := by rw [s3]
                      rw [this]
                      unfold epsNext
                      have e2 : st2.eps = st.eps := by rw [s2]; exact pp.fr.eps
                      have f2 := fr2.finalEps
                      split <;> omega
                    · rw [fr03.finalEps]; exact x2
                    · rw [fr03.D]; exact x3
    next nd =>
      refine ⟨FrS.refl st, en.base.hinv.bp, ?_, Nat.le_refl _, by simp, by simp, fun h => absurd h nd, by simp, by simp, by simp, by simp,
        fun _ _ _ _ _ h => h⟩
      rcases en.goalT with h | h
      · exact tail_of_base en.base en.ep (.inl h)
      · have t := tail_of_base (out := True) en.base en.ep (.inr trivial)
        refine ⟨t.gInf, t.vInf, t.ptr, ?_, ?_, t.start⟩
        · intro n l
          obtain ⟨p, c, h1, h2, h3, h4⟩ := en.base.sound.vPtr gl en.base.accG l n
          exact ⟨p, h1, h2, .inl ⟨c, h3, h4⟩⟩
        · intro _ l; have l : st.v gl = INF := l; omega

end Sbpl.LazyARA
