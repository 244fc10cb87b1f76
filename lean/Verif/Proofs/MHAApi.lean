import Verif.Proofs.MHA
import Verif.Proofs.ARAApi
/-! Preparation, main loop, path extraction and histories of the MHA* model. -/

namespace Sbpl.MHA
open GraphSpec Heap

/-! ## preparation -/

/-- valid between calls -/
structure Between (st : MHA) : Prop where
  heap : ∀ i, i ≤ st.hcount → BP (st.opn i) ∧ Ordered (st.opn i)
  callLe : ∀ s, st.callA s ≤ st.call

/-- before the start state is inserted -/
structure Fresh (st : MHA) (gl : Nat) : Prop where
  heap : ∀ i, i ≤ st.hcount → BP (st.opn i) ∧ Ordered (st.opn i) ∧ ∀ s, keyOf (st.opn i) s = none
  callLe : ∀ s, st.callA s ≤ st.call
  vals : ∀ s, st.acc s → st.g s = INF ∧ st.v s = INF ∧ st.bp s = none ∧ st.cAnc s = false ∧ st.cAdd s = false ∧
    ∀ i, i ≤ st.hcount → st.h i s = st.hs i gl s
  tr : st.trace = []
  num : st.numExp = 0

theorem reinit_fresh {st : MHA} {gl : Nat} (f : Fresh st gl) (t : Nat) :
    Fresh (st.reinitState gl t) gl ∧ (st.reinitState gl t).acc t ∧ (∀ s, st.acc s → (st.reinitState gl t).acc s) ∧
    Frame st (st.reinitState gl t) ∧ (st.reinitState gl t).epsSat = st.epsSat := by
  have hf := reinit_frame st gl t
  rw [reinit_eq (fun s _ i hi => (f.heap i hi).2.2 s)] at hf ⊢
  by_cases a : st.acc t
  · rw [if_pos a] at hf ⊢
    exact ⟨f, a, fun s h => h, hf, rfl⟩
  rw [if_neg a] at hf ⊢
  have hacc : ∀ s, (upd st.callA t st.call s = st.call) ↔ s = t ∨ st.acc s := by
    intro s
    by_cases e : s = t
    · simp [e]
    · simp [upd_other _ _ e, e, acc]
  refine ⟨⟨f.heap, ?_, ?_, f.tr, f.num⟩, by simp [acc], fun s h => (hacc s).mpr (.inr h), hf, rfl⟩
  · intro s
    show upd st.callA t st.call s ≤ st.call
    by_cases e : s = t
    · simp [e]
    · rw [upd_other _ _ e]; exact f.callLe s
  · intro s h
    by_cases e : s = t
    · subst e
      refine ⟨by simp, by simp, by simp, by simp, by simp, ?_⟩
      intro i hi
      change i ≤ st.hcount at hi
      simp [hi]
    · have hv := f.vals s (((hacc s).mp h).resolve_left e)
      simp only [upd_other _ _ e]
      refine ⟨hv.1, hv.2.1, hv.2.2.1, hv.2.2.2.1, hv.2.2.2.2.1, ?_⟩
      intro i hi
      change i ≤ st.hcount at hi
      simp only [hi, if_true, upd_other _ _ e]
      exact hv.2.2.2.2.2 i hi

theorem insertStart_spec {s0 : Nat} (is : List Nat) : ∀ {st : MHA},
    (∀ i, i ≤ st.hcount → BP (st.opn i) ∧ Ordered (st.opn i)) → (∀ i ∈ is, i ≤ st.hcount) → is.Nodup →
    (∀ i ∈ is, keyOf (st.opn i) s0 = none) →
    OkOr (st.insertStart s0 is) fun st' => OpnOnly st st' s0 ∧
      (∀ i ∈ is, keyOf (st'.opn i) s0 = some ⟨(st.key s0 i : Int), 0⟩) ∧ ∀ i, i ∉ is → st'.opn i = st.opn i := by
  induction is with
  | nil => intro st hh _ _ _; exact ⟨⟨rfl, hh, fun _ _ _ _ => rfl⟩, by simp, fun _ _ => rfl⟩
  | cons i is ih =>
    intro st hh hm nd hn
    obtain ⟨n1, n2⟩ := List.nodup_cons.mp nd
    have hi := hm i (by simp)
    unfold insertStart
    cases e : (st.opn i).insert s0 ⟨(st.key s0 i : Int), 0⟩ with
    | error er =>
      show PErr.heap er = .heap .full
      rcases insert_err e with ⟨h, _⟩ | ⟨_, _, h⟩
      · rw [h]
      · exact absurd (hn i (by simp)) h
    | ok h' =>
      obtain ⟨a1, a2, a3, a4, a5, a6⟩ := insert_spec (hh i hi).1 e
      have o1 : OpnOnly st { st with opn := upd st.opn i h' } s0 := by
        refine ⟨rfl, ?_, ?_⟩
        · intro j hj
          show BP (upd st.opn i h' j) ∧ Ordered (upd st.opn i h' j)
          by_cases e : j = i
          · rw [e, upd_same]; exact ⟨a1, a4 (hh i hi).2⟩
          · rw [upd_other _ _ e]; exact hh j hj
        · intro j hj t ht
          show keyOf (upd st.opn i h' j) t = _
          by_cases e : j = i
          · rw [e, upd_same, a2, upd_other _ _ ht]
          · rw [upd_other _ _ e]
      refine (ih (st := { st with opn := upd st.opn i h' }) o1.heap (fun j hj => hm j (by simp [hj])) n2 ?_).imp ?_
      · intro j hj
        have : j ≠ i := by rintro rfl; exact n1 hj
        show keyOf (upd st.opn i h' j) s0 = none
        rw [upd_other _ _ this]; exact hn j (by simp [hj])
      · rintro st2 ⟨o2, k2, q2⟩
        refine ⟨o1.trans o2, ?_, ?_⟩
        · intro j hj
          rcases List.mem_cons.mp hj with q | q
          · rw [q, q2 i n1]
            show keyOf (upd st.opn i h' i) s0 = _
            rw [upd_same, a2, upd_same]
          · exact k2 j q
        · intro j hj
          have h1 : j ≠ i := by rintro rfl; exact hj (by simp)
          have h2 : j ∉ is := fun h => hj (by simp [h])
          rw [q2 j h2]
          exact upd_other _ _ h1

theorem prepare_ok {st : MHA} (hb : Between st) (p : Params) (s0 gl : Nat) :
    OkOr (st.prepare p s0 gl) fun st' => Ok st' s0 gl 0 [] ∧ st'.trace = [] ∧ (st'.opn 0).size ≠ 0 ∧ st'.epsSat = none ∧
      st'.env = st.env ∧ st'.hs = st.hs ∧ st'.hcount = st.hcount ∧ st'.D = st.D ∧ st'.eps = p.initEps ∧
      st'.epsMha = st.initEpsMha ∧ st'.start = st.start ∧ st'.goal = st.goal ∧ st'.initEpsMha = st.initEpsMha ∧
      st'.maxExp = st.maxExp := by
  unfold prepare
  have f1 : Fresh { st with
      opn := fun i => if i ≤ st.hcount then (st.opn i).makeEmpty else st.opn i
      eps := p.initEps, epsMha := st.initEpsMha, epsSat := none, numExp := 0, call := st.call + 1, trace := [] } gl := by
    refine ⟨?_, ?_, ?_, rfl, rfl⟩
    · intro i hi
      change i ≤ st.hcount at hi
      simp only [hi, if_true]
      obtain ⟨a1, a2, a3, a4, _⟩ := makeEmpty_spec (hb.heap i hi).1
      exact ⟨a1, a4, a2⟩
    · intro s; show st.callA s ≤ st.call + 1; have := hb.callLe s; omega
    · intro s h
      have : st.callA s = st.call + 1 := h
      have := hb.callLe s
      omega
  obtain ⟨f2, a2, _, fr2, es2⟩ := reinit_fresh f1 gl
  simp only
  generalize ({ st with
      opn := fun i => if i ≤ st.hcount then (st.opn i).makeEmpty else st.opn i
      eps := p.initEps, epsMha := st.initEpsMha, epsSat := none, numExp := 0, call := st.call + 1, trace := [] } :
      MHA).reinitState gl gl = st2 at f2 a2 fr2 es2 ⊢
  obtain ⟨f3, a3, m3, fr3, es3⟩ := reinit_fresh f2 s0
  have a3g : (st2.reinitState gl s0).acc gl := m3 gl a2
  generalize st2.reinitState gl s0 = st3 at f3 a3 a3g fr3 es3 ⊢
  have fr := fr2.trans fr3
  have hc : st3.hcount = st.hcount := fr.hcount
  have hrange : ∀ i, i ∈ List.range (st.hcount + 1) ↔ i ≤ st3.hcount := by
    intro i; rw [List.mem_range, hc]; omega
  have ins := insertStart_spec (s0 := s0) (List.range (st.hcount + 1)) (st := { st3 with g := upd st3.g s0 0 })
    (fun i hi => ⟨(f3.heap i hi).1, (f3.heap i hi).2.1⟩) (fun i hi => (hrange i).mp hi) List.nodup_range
    (fun i hi => (f3.heap i ((hrange i).mp hi)).2.2 s0)
  refine ins.imp ?_
  rintro st4 ⟨oo, kk, _⟩
  have ks : ∀ i, i ≤ st3.hcount → keyOf (st4.opn i) s0 = some ⟨((0 + ARA.infl st3.D st3.eps (st3.h i s0) : Nat) : Int), 0⟩ := by
    intro i hi
    rw [kk i ((hrange i).mpr hi)]
    simp [key]
  have kn : ∀ i, i ≤ st3.hcount → ∀ s, s ≠ s0 → keyOf (st4.opn i) s = none := by
    intro i hi s hs
    rw [oo.other i hi s hs]; exact (f3.heap i hi).2.2 s
  have hh := oo.heap
  have heq := oo.eq
  have keyS : ∀ i, i ≤ st3.hcount → ∀ s k, keyOf (st4.opn i) s = some k →
      s = s0 ∧ k = ⟨((0 + ARA.infl st3.D st3.eps (st3.h i s0) : Nat) : Int), 0⟩ := by
    intro i hi s k h
    by_cases e : s = s0
    · rw [e, ks i hi] at h; cases h; exact ⟨e, rfl⟩
    · rw [kn i hi s e] at h; cases h
  have gval : ∀ s, st3.acc s → upd st3.g s0 0 s = if s = s0 then 0 else INF := by
    intro s h
    by_cases e : s = s0
    · simp [e]
    · rw [upd_other _ _ e, if_neg e]; exact (f3.vals s h).1
  refine ⟨?_, ?_, ?_, ?_, ?_, ?_, ?_, ?_, ?_, ?_, ?_, ?_, ?_, ?_⟩
  · rw [heq]
    generalize st4.opn = q at *
    constructor
    · exact hh
    · intro s h i hi
      exact kn i hi s (fun e => h (e ▸ a3))
    · exact f3.callLe
    · intro s h i hi; exact (f3.vals s h).2.2.2.2.2 i hi
    · exact a3
    · simp
    · exact (f3.vals s0 a3).2.2.1
    · exact a3g
    · intro s h; exact Nat.le_of_eq (f3.vals s h).2.1
    · intro s h
      show upd st3.g s0 0 s ≤ st3.v s
      rw [gval s h, (f3.vals s h).2.1]; split <;> omega
    · intro s k h
      obtain ⟨rfl, rfl⟩ := keyS 0 (Nat.zero_le _) s k h
      simp only [key, upd_same]
      exact ⟨trivial, by decide⟩
    · intro i hi s k h
      obtain ⟨rfl, rfl⟩ := keyS i hi s k h
      refine ⟨by simp, ?_⟩
      show keyOf (q 0) s ≠ none
      rw [ks 0 (Nat.zero_le _)]; simp
    · intro s p' h hb
      have : st3.bp s = none := (f3.vals s h).2.2.1
      change st3.bp s = some p' at hb
      rw [this] at hb; cases hb
    · intro s h _; exact (f3.vals s h).2.2.1
    · intro s h hg
      have hg' : upd st3.g s0 0 s < INF := hg
      rw [gval s h] at hg'
      split at hg'
      next e => rw [e]; exact .root (f3.vals s0 a3).2.2.1
      next e => omega
    · intro s h hc'
      have : st3.cAnc s = false := (f3.vals s h).2.2.2.1
      change st3.cAnc s = true at hc'
      rw [this] at hc'; cases hc'
    · intro s h hc'
      have : st3.cAdd s = false := (f3.vals s h).2.2.2.2.1
      change st3.cAdd s = true at hc'
      rw [this] at hc'; cases hc'
    · intro s h hg
      left
      have hg' : upd st3.g s0 0 s < st3.v s := hg
      rw [gval s h, (f3.vals s h).2.1] at hg'
      split at hg'
      next e => rw [e]; show keyOf (q 0) s0 ≠ none; rw [ks 0 (Nat.zero_le _)]; simp
      next e => omega
    · intro s h hv
      have : st3.v s = INF := (f3.vals s h).2.1
      change st3.v s < INF at hv
      omega
    · show st3.trace.Nodup; rw [f3.tr]; exact List.nodup_nil
    · intro s
      show (s, true) ∈ st3.trace ↔ st3.acc s ∧ st3.cAnc s = true
      rw [f3.tr]
      constructor
      · intro h; cases h
      · rintro ⟨h1, h2⟩; rw [(f3.vals s h1).2.2.2.1] at h2; cases h2
    · intro s
      show (s, false) ∈ st3.trace ↔ st3.acc s ∧ st3.cAdd s = true
      rw [f3.tr]
      constructor
      · intro h; cases h
      · rintro ⟨h1, h2⟩; rw [(f3.vals s h1).2.2.2.2.1] at h2; cases h2
    · intro s h
      show st3.v s < INF ↔ ∃ b, (s, b) ∈ st3.trace
      rw [f3.tr, (f3.vals s h).2.1]; simp
    · intro b; show (gl, b) ∉ st3.trace; rw [f3.tr]; simp
    · show st3.trace.Pairwise _; rw [f3.tr]; exact List.Pairwise.nil
    · show st3.numExp = st3.trace.length; rw [f3.tr, f3.num]; rfl
    · intro N M _ s h hc'
      have : st3.cAnc s = false := (f3.vals s h).2.2.2.1
      change st3.cAnc s = true at hc'
      rw [this] at hc'; cases hc'
  · rw [heq]; exact f3.tr
  · intro z
    obtain ⟨j, j1, j2, _⟩ := slot_of_keyOf (hh 0 (Nat.zero_le _)).1 (ks 0 (Nat.zero_le _))
    omega
  · rw [heq]; show st3.epsSat = none; rw [es3, es2]
  · rw [heq]; exact fr.env
  · rw [heq]; exact fr.hs
  · rw [heq]; exact fr.hcount
  · rw [heq]; exact fr.D
  · rw [heq]; exact fr.eps
  · rw [heq]; exact fr.epsMha
  · rw [heq]; exact fr.start
  · rw [heq]; exact fr.goal
  · rw [heq]; exact fr.ime
  · rw [heq]; exact fr.me

/-! ## main loop -/

theorem Ok.epsSat {st : MHA} {s0 gl x : Nat} (o : Ok st s0 gl x []) (e : Option Nat) : Ok { st with epsSat := e } s0 gl x [] :=
  ⟨o.heap, o.stale, o.callLe, o.hval, o.accS, o.gS, o.bpS, o.accG, o.vle, o.gv, o.key0, o.keyi, o.par, o.infBp, o.chain, o.anc,
    o.add, o.front, o.rel, o.nd, o.trA, o.trB, o.vtr, o.goalNot, o.order, o.len, o.bound⟩

/-- the goal test succeeded on list `i` -/
def Found (st : MHA) (gl : Nat) : Prop :=
  st.epsSat = some (st.eps * st.epsMha) ∧ (st.opn 0).size ≠ 0 ∧
  ∃ i, i ≤ st.hcount ∧ (st.g gl : Int) ≤ st.minf i ∧ (i = 0 ∨ st.minf i * st.D ≤ st.epsMha * st.minf 0)

/-- outcome of a step -/
def Post (st : MHA) (s0 gl m : Nat) : Out → Prop
  | .found st' => Ok st' s0 gl 0 [] ∧ Frame st st' ∧ Found st' gl
  | .go st' => Ok st' s0 gl 0 [] ∧ Frame st st' ∧ st.trace.length + m ≤ st'.trace.length ∧ st'.epsSat = st.epsSat

theorem relaxAll_epsSat {gl s : Nat} (es : List (Nat × Nat)) : ∀ {st st' : MHA}, st.relaxAll gl s es = .ok st' →
    st'.epsSat = st.epsSat := by
  have iou : ∀ {st st' : MHA} {s i f : Nat}, st.insertOrUpdate s i f = .ok st' → st'.epsSat = st.epsSat := by
    intro st st' s i f h
    unfold insertOrUpdate at h
    split at h <;> cases h
    rfl
  have ia : ∀ {s fa : Nat} (is : List Nat) {st st' : MHA}, st.insertAdds s fa is = .ok st' → st'.epsSat = st.epsSat := by
    intro s fa is
    induction is with
    | nil => intro st st' h; cases h; rfl
    | cons i is ih =>
      intro st st' h
      unfold insertAdds at h
      split at h
      · split at h
        · cases h
        next st1 e => rw [ih h, iou e]
      · exact ih h
  have ro : ∀ {st st' : MHA} {t : Nat}, st.reopen t = .ok st' → st'.epsSat = st.epsSat := by
    intro st st' t h
    unfold reopen at h
    split at h
    · split at h
      · cases h
      next st1 e =>
        split at h
        · rw [ia _ h, iou e]
        · cases h; exact iou e
    · cases h; rfl
  induction es with
  | nil => intro st st' h; cases h; rfl
  | cons e es ih =>
    intro st st' h
    obtain ⟨t, c⟩ := e
    unfold relaxAll at h
    split at h
    · cases h
    next st1 e =>
      rw [ih h]
      unfold relax at e
      simp only at e
      have r : (st.reinitState gl t).epsSat = st.epsSat := by unfold reinitState; split <;> rfl
      split at e
      · rw [ro e]; exact r
      · cases e; exact r

theorem removeFrom_epsSat {s : Nat} (is : List Nat) : ∀ {st st' : MHA}, st.removeFrom s is = .ok st' →
    st'.epsSat = st.epsSat := by
  induction is with
  | nil => intro st st' h; cases h; rfl
  | cons i is ih =>
    intro st st' h
    unfold removeFrom at h
    split at h
    · split at h
      · cases h
      · rw [ih h]
    · exact ih h

theorem expand_epsSat {gl s i : Nat} {st st' : MHA} (h : st.expand gl s i = .ok st') : st'.epsSat = st.epsSat := by
  unfold expand at h
  simp only at h
  split at h
  · cases h
  next e => rw [relaxAll_epsSat _ h, removeFrom_epsSat _ e]

theorem serve_ok {st : MHA} {s0 gl x i : Nat} (o : Ok st s0 gl x []) (hi : i ≤ st.hcount) (nz : (st.opn i).size ≠ 0)
    (nz0 : (st.opn 0).size ≠ 0) (hc : i = 0 ∨ st.minf i * st.D ≤ st.epsMha * st.minf 0) :
    OkOr (st.serve gl i) (Post st s0 gl 1) := by
  unfold serve
  split
  next h =>
    exact ⟨(o.any 0).epsSat _, ⟨rfl, rfl, rfl, rfl, rfl, rfl, rfl, rfl, rfl, rfl, rfl⟩, rfl, nz0, i, hi, h, hc⟩
  next h =>
    have := expand_ok o hi nz h
    cases e : st.expand gl (st.top i) i with
    | error er => rw [e] at this; exact this
    | ok st1 =>
      rw [e] at this
      obtain ⟨o1, f1, t1⟩ := this
      refine ⟨o1, f1, ?_, expand_epsSat e⟩
      rw [t1]; simp

theorem forLoop_ok {s0 gl : Nat} (is : List Nat) : ∀ {st : MHA} {x : Nat}, Ok st s0 gl x [] → (∀ i ∈ is, i ≤ st.hcount) →
    OkOr (forLoop gl is st) (Post st s0 gl (if (st.opn 0).isEmpty = true ∨ is = [] then 0 else 1)) := by
  induction is with
  | nil => intro st x o _; exact ⟨o.any 0, Frame.refl st, by simp, rfl⟩
  | cons i is ih =>
    intro st x o hm
    unfold forLoop
    by_cases h0 : (st.opn 0).isEmpty = true
    · simp only [h0, if_true]
      exact ⟨o.any 0, Frame.refl st, by simp, rfl⟩
    simp only [h0]
    have nz0 : (st.opn 0).size ≠ 0 := by simpa [isEmpty] using h0
    have hch : st.choose i ≤ st.hcount ∧ (st.opn (st.choose i)).size ≠ 0 ∧
        (st.choose i = 0 ∨ st.minf (st.choose i) * st.D ≤ st.epsMha * st.minf 0) := by
      unfold choose
      split
      next h =>
        simp only [Bool.and_eq_true, Bool.not_eq_true', decide_eq_true_eq] at h
        refine ⟨hm i (by simp), ?_, .inr h.2⟩
        have := h.1
        simpa [isEmpty] using this
      · exact ⟨Nat.zero_le _, nz0, .inl rfl⟩
    have hs := serve_ok o hch.1 hch.2.1 nz0 hch.2.2
    simp only [Bool.false_eq_true, if_false, false_or]
    cases e : st.serve gl (st.choose i) with
    | error er => rw [e] at hs; exact hs
    | ok r =>
      rw [e] at hs
      cases r with
      | found st1 => exact hs
      | go st1 =>
        obtain ⟨o1, f1, t1, s1⟩ := hs
        refine (ih (st := st1) o1 (by rw [f1.hcount]; exact fun j hj => hm j (by simp [hj]))).imp ?_
        intro r hr
        cases r with
        | found st2 => exact ⟨hr.1, f1.trans hr.2.1, hr.2.2⟩
        | go st2 =>
          refine ⟨hr.1, f1.trans hr.2.1, ?_, by rw [hr.2.2.2, s1]⟩
          have := hr.2.2.1
          simp only [reduceCtorEq, if_false]
          omega

theorem body_ok {st : MHA} {s0 gl x : Nat} (o : Ok st s0 gl x []) (nz : (st.opn 0).size ≠ 0) :
    OkOr (st.body gl) (Post st s0 gl 1) := by
  unfold body
  split
  · exact serve_ok o (Nat.zero_le _) nz nz (.inl rfl)
  next h =>
    have := forLoop_ok (s0 := s0) (gl := gl) st.adds (st := st) o (by
      intro i hi
      simp only [adds, List.mem_map, List.mem_range] at hi
      obtain ⟨a, ha, rfl⟩ := hi
      omega)
    have e : ¬ ((st.opn 0).isEmpty = true ∨ st.adds = []) := by
      simp only [isEmpty, beq_iff_eq, adds, List.map_eq_nil_iff, List.range_eq_nil]
      omega
    rwa [if_neg e] at this

theorem mainLoop_ok {s0 gl : Nat} {p : Params} (b : Nat) : ∀ {st : MHA}, Ok st s0 gl 0 [] → st.epsSat = none →
    OkOr (mainLoop gl p b st) fun r => Ok r.2 s0 gl 0 [] ∧ Frame st r.2 ∧
      (r.1 = .found → Found r.2 gl) ∧ (r.1 ≠ .found → r.2.epsSat = none) ∧ (r.1 = .exhausted → (r.2.opn 0).size = 0) ∧
      (r.1 = .limit → r.2.expLimit p = true ∨ st.trace.length + b ≤ r.2.trace.length) := by
  induction b with
  | zero =>
    intro st o hs
    unfold mainLoop
    refine ⟨o, Frame.refl st, ?_, fun _ => hs, ?_, ?_⟩
    · intro h; simp only at h; split at h <;> cases h
    · intro h
      simp only at h
      split at h
      next q => simpa [isEmpty] using q
      next => cases h
    · intro _; right; simp
  | succ b ih =>
    intro st o hs
    unfold mainLoop
    by_cases h0 : (st.opn 0).isEmpty = true
    · simp only [h0, if_true]
      exact ⟨o, Frame.refl st, by simp, fun _ => hs, fun _ => by simpa [isEmpty] using h0, by simp⟩
    simp only [h0, Bool.false_eq_true, if_false]
    have nz : (st.opn 0).size ≠ 0 := by simpa [isEmpty] using h0
    by_cases hl : st.expLimit p = true
    · simp only [hl, if_true]
      exact ⟨o, Frame.refl st, by simp, fun _ => hs, by simp, fun _ => .inl hl⟩
    simp only [hl, Bool.false_eq_true, if_false]
    have hb := body_ok o nz
    cases e : st.body gl with
    | error er => rw [e] at hb; exact hb
    | ok r =>
      rw [e] at hb
      cases r with
      | found st1 => exact ⟨hb.1, hb.2.1, fun _ => hb.2.2, by simp, by simp, by simp⟩
      | go st1 =>
        obtain ⟨o1, f1, t1, s1⟩ := hb
        refine (ih o1 (by rw [s1, hs])).imp ?_
        rintro r ⟨r1, r2, r3, r4, r5, r6⟩
        refine ⟨r1, f1.trans r2, r3, r4, r5, fun h => ?_⟩
        rcases r6 h with q | q
        · exact .inl q
        · right; omega

/-! ## number of expansions -/

theorem relaxAll_numExp {gl s : Nat} (es : List (Nat × Nat)) : ∀ {st st' : MHA}, st.relaxAll gl s es = .ok st' →
    st'.numExp = st.numExp := by
  have iou : ∀ {st st' : MHA} {s i f : Nat}, st.insertOrUpdate s i f = .ok st' → st'.numExp = st.numExp := by
    intro st st' s i f h
    unfold insertOrUpdate at h
    split at h <;> cases h
    rfl
  have ia : ∀ {s fa : Nat} (is : List Nat) {st st' : MHA}, st.insertAdds s fa is = .ok st' → st'.numExp = st.numExp := by
    intro s fa is
    induction is with
    | nil => intro st st' h; cases h; rfl
    | cons i is ih =>
      intro st st' h
      unfold insertAdds at h
      split at h
      · split at h
        · cases h
        next st1 e => rw [ih h, iou e]
      · exact ih h
  have ro : ∀ {st st' : MHA} {t : Nat}, st.reopen t = .ok st' → st'.numExp = st.numExp := by
    intro st st' t h
    unfold reopen at h
    split at h
    · split at h
      · cases h
      next st1 e =>
        split at h
        · rw [ia _ h, iou e]
        · cases h; exact iou e
    · cases h; rfl
  induction es with
  | nil => intro st st' h; cases h; rfl
  | cons e es ih =>
    intro st st' h
    obtain ⟨t, c⟩ := e
    unfold relaxAll at h
    split at h
    · cases h
    next st1 e =>
      rw [ih h]
      unfold relax at e
      simp only at e
      have r : (st.reinitState gl t).numExp = st.numExp := by unfold reinitState; split <;> rfl
      split at e
      · rw [ro e]; exact r
      · cases e; exact r

theorem removeFrom_numExp {s : Nat} (is : List Nat) : ∀ {st st' : MHA}, st.removeFrom s is = .ok st' →
    st'.numExp = st.numExp := by
  induction is with
  | nil => intro st st' h; cases h; rfl
  | cons i is ih =>
    intro st st' h
    unfold removeFrom at h
    split at h
    · split at h
      · cases h
      · rw [ih h]
    · exact ih h

theorem expand_numExp {gl s i : Nat} {st st' : MHA} (h : st.expand gl s i = .ok st') : st'.numExp = st.numExp + 1 := by
  unfold expand at h
  simp only at h
  split at h
  · cases h
  next e => rw [relaxAll_numExp _ h, removeFrom_numExp _ e]

theorem forLoop_numExp {gl : Nat} (is : List Nat) : ∀ {st : MHA} {r : Out}, forLoop gl is st = .ok r →
    match r with
    | .found st' => st'.numExp ≤ st.numExp + is.length
    | .go st' => st'.numExp ≤ st.numExp + is.length := by
  induction is with
  | nil => intro st r h; cases h; exact Nat.le_refl _
  | cons i is ih =>
    intro st r h
    unfold forLoop at h
    split at h
    · cases h; simp
    · split at h
      · cases h
      next st1 e =>
        cases h
        unfold serve at e
        split at e
        · cases e; simp
        · split at e <;> cases e
      next st1 e =>
        have h1 : st1.numExp = st.numExp + 1 := by
          unfold serve at e
          split at e
          · cases e
          · split at e
            · cases e
            next q => cases e; exact expand_numExp q
        have := ih h
        rw [h1] at this
        cases r <;> simp only [List.length_cons] at this ⊢ <;> omega

theorem body_numExp {gl : Nat} {st : MHA} {r : Out} (h : st.body gl = .ok r) :
    match r with
    | .found st' => st'.numExp ≤ st.numExp + max 1 st.hcount
    | .go st' => st'.numExp ≤ st.numExp + max 1 st.hcount := by
  unfold body at h
  split at h
  · unfold serve at h
    split at h
    · cases h; simp
    · split at h
      · cases h
      next q => cases h; simp only [expand_numExp q]; omega
  · have := forLoop_numExp _ h
    have e : st.adds.length = st.hcount := by simp [adds]
    rw [e] at this
    cases r <;> simp only at this ⊢ <;> omega

theorem mainLoop_numExp {s0 gl : Nat} {p : Params} (hp : p.first = false) (b : Nat) : ∀ {st : MHA}, Ok st s0 gl 0 [] →
    0 < st.maxExp → st.numExp < st.maxExp + max 1 st.hcount →
    ∀ {r}, mainLoop gl p b st = .ok r → r.2.numExp < st.maxExp + max 1 st.hcount := by
  induction b with
  | zero => intro st o h0 h1 r h; cases h; exact h1
  | succ b ih =>
    intro st o h0 h1 r h
    unfold mainLoop at h
    split at h
    · cases h; exact h1
    next ne =>
      split at h
      · cases h; exact h1
      next hl =>
        have lt : st.numExp < st.maxExp := by
          simp only [expLimit, hp, Bool.not_false, Bool.true_and, Bool.and_eq_true, decide_eq_true_eq] at hl
          omega
        have nz : (st.opn 0).size ≠ 0 := by simpa [isEmpty] using ne
        have hb := body_ok o nz
        split at h
        · cases h
        next st1 e =>
          cases h
          have := body_numExp e
          simp only at this ⊢
          omega
        next st1 e =>
          have := body_numExp e
          rw [e] at hb
          obtain ⟨o1, f1, _, _⟩ := hb
          simp only at this
          have := ih o1 (by rw [f1.me]; exact h0) (by rw [f1.me, f1.hcount]; omega) h
          rw [f1.me, f1.hcount] at this
          exact this

/-! ## consequences -/

theorem found_bound {st : MHA} {s0 gl N M w : Nat} (o : Ok st s0 gl 0 []) (hf : Found st gl) (hG : Good st gl N M)
    (hE : st.D ≤ st.epsMha) (hw : Walk (st.env.succs gl) s0 gl w) : st.D * (M * st.g gl) ≤ st.epsMha * (N * w) := by
  have weak : M * st.g gl ≤ N * w → st.D * (M * st.g gl) ≤ st.epsMha * (N * w) := fun h => Nat.mul_le_mul hE h
  have gi : st.g gl ≤ INF := Nat.le_trans (o.gv gl o.accG) (o.vle gl o.accG)
  rcases minf0_bound o hG hw with ⟨_, h⟩ | h | ⟨_, h⟩
  · exact weak (Nat.le_trans (Nat.mul_le_mul_left _ (o.gv gl o.accG)) h)
  · exact weak (Nat.le_trans (Nat.mul_le_mul_left _ gi) h)
  · rw [hG.2.1] at h
    have z : ARA.infl st.D st.eps 0 = 0 := by simp [ARA.infl]
    rw [z] at h
    simp only [Nat.cast_zero, mul_zero, add_zero] at h
    obtain ⟨_, nz0, i, hi, hg, hc⟩ := hf
    rcases hc with rfl | hc
    · apply weak
      have : (M : Int) * st.g gl ≤ M * st.minf 0 := mul_le_mul_of_nonneg_left hg (by omega)
      have : (M : Int) * st.g gl ≤ N * w := le_trans this h
      exact_mod_cast this
    · have h1 : (st.g gl : Int) * st.D ≤ st.minf i * st.D := mul_le_mul_of_nonneg_right hg (by omega)
      have h2 : (st.g gl : Int) * st.D ≤ st.epsMha * st.minf 0 := le_trans h1 hc
      have h3 : (M : Int) * ((st.g gl : Int) * st.D) ≤ M * (st.epsMha * st.minf 0) := mul_le_mul_of_nonneg_left h2 (by omega)
      have h4 : (st.epsMha : Int) * (M * st.minf 0) ≤ st.epsMha * (N * w) := mul_le_mul_of_nonneg_left h (by omega)
      have h5 : (st.D : Int) * (M * st.g gl) ≤ st.epsMha * (N * w) := by
        calc (st.D : Int) * (M * st.g gl) = M * ((st.g gl : Int) * st.D) := by ring
          _ ≤ M * (st.epsMha * st.minf 0) := h3
          _ = st.epsMha * (M * st.minf 0) := by ring
          _ ≤ _ := h4
      exact_mod_cast h5

theorem exhausted_none {st : MHA} {s0 gl N M w : Nat} (o : Ok st s0 gl 0 []) (hz : (st.opn 0).size = 0) (hG : Good st gl N M)
    (hw : Walk (st.env.succs gl) s0 gl w) : M * INF ≤ N * w := by
  have nv : ¬ st.v gl < INF := by
    intro h
    obtain ⟨b, hb⟩ := (o.vtr gl o.accG).mp h
    exact o.goalNot b hb
  rcases minf0_bound o hG hw with ⟨_, h⟩ | h | ⟨h, _⟩
  · have : st.v gl = INF := by have := o.vle gl o.accG; omega
    rwa [this] at h
  · exact h
  · exact absurd hz h

theorem exhausted_goal {st : MHA} {s0 gl : Nat} (o : Ok st s0 gl 0 []) (hz : (st.opn 0).size = 0) : st.g gl = INF := by
  have nv : ¬ st.v gl < INF := by
    intro h
    obtain ⟨b, hb⟩ := (o.vtr gl o.accG).mp h
    exact o.goalNot b hb
  have v1 := o.vle gl o.accG
  have g1 := o.gv gl o.accG
  by_contra h
  have lt : st.g gl < st.v gl := by omega
  rcases o.front gl o.accG lt with q | q
  · cases hk : keyOf (st.opn 0) gl with
    | none => exact q hk
    | some k =>
      obtain ⟨j, j1, j2, _⟩ := slot_of_keyOf (o.heap 0 (Nat.zero_le _)).1 hk
      omega
  · exact o.goalNot true ((o.trA gl).mpr ⟨o.accG, q⟩)

theorem chain_walk {st : MHA} {s0 gl x : Nat} {es : List (Nat × Nat)} (o : Ok st s0 gl x es) {s : Nat} (h : Chain st.bp s0 s) :
    st.acc s → ∃ n, Walk (st.env.succs gl) s0 s n := by
  induction h with
  | root _ => intro _; exact ⟨0, .nil⟩
  | step e _ ih =>
    intro ha
    obtain ⟨h1, _, c, h3, _⟩ := o.par _ _ ha e
    obtain ⟨n, w⟩ := ih h1
    exact ⟨n + c, .snoc w h3⟩

theorem trace_reach {st : MHA} {s0 gl x : Nat} {es : List (Nat × Nat)} (o : Ok st s0 gl x es) {s : Nat} {b : Bool}
    (h : (s, b) ∈ st.trace) : ∃ n, Walk (st.env.succs gl) s0 s n := by
  have ha : st.acc s := by
    cases b
    · exact ((o.trB s).mp h).1
    · exact ((o.trA s).mp h).1
  have hv : st.v s < INF := (o.vtr s ha).mpr ⟨b, h⟩
  have := o.gv s ha
  exact chain_walk o (o.chain s ha (by omega)) ha

/-- length of the chain of back pointers -/
inductive Dep (bp : Nat → Option Nat) (s0 : Nat) : Nat → Nat → Prop
  | root : bp s0 = none → Dep bp s0 0 s0
  | step {s p n : Nat} : bp s = some p → Dep bp s0 n p → Dep bp s0 (n + 1) s

theorem Dep.unique {bp : Nat → Option Nat} {s0 n s : Nat} (h : Dep bp s0 n s) : ∀ {m : Nat}, Dep bp s0 m s → n = m := by
  induction h with
  | root e =>
    intro m h'
    cases h' with
    | root => rfl
    | step e' _ => rw [e] at e'; cases e'
  | step e _ ih =>
    intro m h'
    cases h' with
    | root e' => rw [e] at e'; cases e'
    | step e' h' => rw [e] at e'; cases e'; rw [ih h']

/-- the list of states that extract_path visits -/
theorem extract_spec {st : MHA} {s0 gl x : Nat} {es : List (Nat × Nat)} (o : Ok st s0 gl x es) {s : Nat}
    (h : Chain st.bp s0 s) : st.acc s → ∃ l n d, Dep st.bp s0 d s ∧ (s :: l).getLast? = some s0 ∧
      (∀ y ∈ l, ∃ b, (y, b) ∈ st.trace) ∧ (∀ y ∈ l, ∃ e, e < d ∧ Dep st.bp s0 e y) ∧ (s :: l).Nodup ∧
      PathCost (st.env.succs gl) (s :: l).reverse n ∧ n ≤ st.g s ∧
      ∀ fuel, l.length < fuel → st.extract fuel s = .ok (s :: l, (st.g s : Int)) := by
  induction h with
  | root e =>
    intro _
    refine ⟨[], 0, 0, .root e, rfl, by simp, by simp, by simp, .single s0, Nat.zero_le _, ?_⟩
    intro fuel hf
    cases fuel with
    | zero => simp at hf
    | succ f => simp [extract, e, o.gS]
  | step e _ ih =>
    rename_i s p _
    intro ha
    obtain ⟨h1, h2, c, h3, h4⟩ := o.par s p ha e
    obtain ⟨l, n, d, b1, b2, b3, b4, b5, b6, b7, b8⟩ := ih h1
    have dep : Dep st.bp s0 (d + 1) s := .step e b1
    refine ⟨p :: l, n + c, d + 1, dep, ?_, ?_, ?_, ?_, ?_, by omega, ?_⟩
    · rw [List.getLast?_cons_cons]; exact b2
    · intro y hy
      rcases List.mem_cons.mp hy with q | q
      · rw [q]; exact (o.vtr p h1).mp h2
      · exact b3 y q
    · intro y hy
      rcases List.mem_cons.mp hy with q | q
      · rw [q]; exact ⟨d, by omega, b1⟩
      · obtain ⟨f, hf, hd⟩ := b4 y q
        exact ⟨f, by omega, hd⟩
    · refine List.nodup_cons.mpr ⟨?_, b5⟩
      intro hy
      rcases List.mem_cons.mp hy with q | q
      · rw [← q] at b1
        have := dep.unique b1; omega
      · obtain ⟨f, hf, hd⟩ := b4 s q
        have := dep.unique hd; omega
    · rw [List.reverse_cons]
      exact ARA.pathCost_snoc b6 (by simp) h3
    · intro fuel hf
      cases fuel with
      | zero => simp at hf
      | succ f =>
        have := b8 f (by simp at hf; omega)
        simp only [extract, e, this]
        congr 2
        ring

end Sbpl.MHA
