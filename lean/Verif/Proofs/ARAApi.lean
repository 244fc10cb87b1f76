import Verif.Proofs.ARAPath
/-! ARA*: the Search loop, replan and histories of interface calls. -/

namespace Sbpl.ARA
open GraphSpec Heap PlannerSpec

/-- number of passes still needed, an upper bound -/
def mu (st : ARA) : Nat := (if st.epsSat = some st.eps then 0 else 1) + (st.eps - st.finalEps)

structure LPost (st : ARA) (s0 gl : Nat) (bs : List Nat) (r : ARA × List (List Nat)) : Prop where
  inv : SInv r.1 s0 gl
  frame : SFrame st r.1
  accG : bs ≠ [] → r.1.acc gl
  nodup : ∀ tr ∈ r.2, tr.Nodup
  noGoal : ∀ tr ∈ r.2, gl ∉ tr
  reach : Pos st → ∀ tr ∈ r.2, ∀ s ∈ tr, ∃ c, Walk st.base s0 s c
  epsB : ∀ B, st.eps ≤ B → st.finalEps ≤ B → r.1.eps ≤ B
  nopath : st.heur gl gl = 0 → NoTimeout bs r.2 → bs ≠ [] → r.1.g gl = INF →
    ∀ (E : Bnd) c, EpsLe r.1 gl E → Walk st.base s0 gl c → E.M * INF ≤ E.N * c
  live : NoTimeout bs r.2 → st.first = false → 1 ≤ st.decEps → mu st ≤ bs.length →
    (∃ e, r.1.epsSat = some e ∧ e ≤ st.finalEps) ∨ r.1.g gl = INF

theorem reach_of_V {st : ARA} {s0 x : Nat} (c : Core st s0 x []) (pos : Pos st) {s : Nat} (h : st.V s < INF) :
    ∃ n, Walk st.base s0 s n := by
  have a : st.acc s := by
    by_contra na; rw [V_stale na] at h; omega
  have g : st.g s < INF := by
    have := (c.GV s).1; rw [G_acc a] at this; omega
  obtain ⟨L, hL, _⟩ := chain_exists c pos (st.g s) s (Nat.le_refl _) a g
  clear h g a
  have key : ∀ M, Chain st s0 M → ∀ s r, M = s :: r → ∃ n, Walk st.base s0 s n := by
    intro M hM
    induction hM with
    | start => intro s r e; cases e; exact ⟨0, .nil⟩
    | @cons s p c r h1 h2 h3 h4 h5 h6 h7 h8 h9 ih =>
      intro s' r' e
      cases e
      obtain ⟨n, w⟩ := ih p r rfl
      exact ⟨n + c, w.snoc h5⟩
  exact key _ hL s L rfl

theorem decrease_eps (st : ARA) : (∀ B, st.eps ≤ B → st.finalEps ≤ B → st.decrease.eps ≤ B) ∧
    (st.first = false → 1 ≤ st.decEps → st.notDone = true → mu { st with eps := st.decrease.eps, epsSat := some st.decrease.eps } < mu st) := by
  unfold decrease
  split
  next h =>
    constructor
    · intro B h1 h2
      simp only
      split <;> omega
    · intro _ hd nd
      simp only [mu, if_true, h.1]
      unfold notDone at nd
      rw [h.1] at nd
      simp only [decide_eq_true_eq] at nd
      split <;> omega
  next h =>
    refine ⟨fun B h1 _ => h1, ?_⟩
    intro hf _ _
    have : st.epsSat ≠ some st.eps := fun x => h ⟨x, hf⟩
    simp only [mu, if_true, if_neg this]
    omega

theorem retCode_lt (st : ARA) (gl : Nat) : st.retCode gl = 0 ∧ st.g gl = INF ∨ st.retCode gl = 1 ∨ st.retCode gl = 2 := by
  unfold retCode
  split
  next h => exact .inl ⟨rfl, h.1⟩
  · split
    · simp
    · split
      next h => exact .inl ⟨rfl, h.1⟩
      · simp

theorem searchLoop_spec {s0 gl : Nat} (bs : List Nat) : ∀ {st : ARA}, SInv st s0 gl → NbrOk st gl →
    OkOr (searchLoop gl bs st) (LPost st s0 gl bs) := by
  induction bs with
  | nil =>
    intro st i _
    refine ⟨i, SFrame.refl _, by simp, by simp, by simp, by simp, fun _ h _ => h, by simp, ?_⟩
    intro _ _ _ h
    left
    simp only [List.length_nil, Nat.le_zero_eq, mu] at h
    by_cases q : st.epsSat = some st.eps
    · exact ⟨st.eps, q, by omega⟩
    · rw [if_neg q] at h; omega
  | cons b bs ih =>
    intro st i hn
    unfold searchLoop
    split
    next hd =>
      have si := searchIter_spec b i hn
      cases e : st.searchIter b with
      | error x => rw [e] at si; exact si
      | ok r =>
        rw [e] at si
        obtain ⟨st1, ret, tr⟩ := r
        have s1 := si.inv; have s2 := si.frame; have s3 := si.accG; have s4 := si.nodup; have s5 := si.noGoal
        have s6 := si.vLt; have s7 := si.len; have s8 := si.fin; have s9 := si.retV; have s10 := si.epsE
        have s11 := si.noRet; have s12 := si.ret; have s13 := si.bnd
        simp only at s1 s2 s3 s4 s5 s6 s7 s8 s9 s10 s11 s12 s13 ⊢
        have de := decrease_eps st
        have rch : Pos st → ∀ s ∈ tr, ∃ c, Walk st.base s0 s c := by
          intro hp s hs
          have := reach_of_V s1.core (by unfold Pos; rw [s2.base]; exact hp) (s6 s hs)
          rw [s2.base] at this; exact this
        have epsB : ∀ B, st.eps ≤ B → st.finalEps ≤ B → st1.eps ≤ B := by
          intro B h1 h2; rw [s10]; exact de.1 B h1 h2
        have nt1 : ∀ {bs' trs}, NoTimeout (b :: bs') (tr :: trs) → ret ≠ 2 ∧ NoTimeout bs' trs := by
          rintro bs' trs ⟨N, h1, h2⟩
          have x1 := h1 tr (by simp)
          have x2 := h2 b (by simp)
          exact ⟨s8 (by omega), N, fun t ht => h1 t (by simp [ht]), fun b hb => h2 b (by simp [hb])⟩
        have one : (st1.first = true ∨ st1.g gl = INF) → LPost st s0 gl (b :: bs) (st1, [tr]) := by
          intro hex
          refine ⟨s1, s2, fun _ => s3, by simpa using s4, by simpa using s5, ?_, epsB, ?_, ?_⟩
          · intro hp t ht; simp only [List.mem_singleton] at ht; subst ht; exact rch hp
          · intro hc nt _ hg E c he w
            have := s13 hc (nt1 nt).1 E c he w
            rw [hg] at this; exact this
          · intro _ hf _ _
            rcases hex with h | h
            · rw [s2.first, hf] at h; cases h
            · exact .inr h
        split
        next hx => exact one (.inl hx)
        · split
          next hx => exact one (.inr hx)
          next hf hg =>
            have ih' := ih s1 (hn.sframe s2)
            cases e2 : searchLoop gl bs st1 with
            | error x => rw [e2] at ih'; exact ih'
            | ok r =>
              rw [e2] at ih'
              obtain ⟨st2, trs⟩ := r
              refine ⟨ih'.inv, s2.trans ih'.frame, fun _ => ih'.frame.accM gl s3, ?_, ?_, ?_, ?_, ?_, ?_⟩
              · intro t ht
                rw [List.mem_cons] at ht
                rcases ht with rfl | ht
                · exact s4
                · exact ih'.nodup t ht
              · intro t ht
                rw [List.mem_cons] at ht
                rcases ht with rfl | ht
                · exact s5
                · exact ih'.noGoal t ht
              · intro hp t ht
                rw [List.mem_cons] at ht
                rcases ht with rfl | ht
                · exact rch hp
                · have := ih'.reach (by unfold Pos; rw [s2.base]; exact hp) t ht
                  rw [s2.base] at this; exact this
              · intro B h1 h2
                exact ih'.epsB B (epsB B h1 h2) (by rw [s2.finalEps]; exact h2)
              · intro hc nt _ hgi E c he w
                cases bs with
                | nil =>
                  simp only [searchLoop, Except.ok.injEq, Prod.mk.injEq] at e2
                  obtain ⟨rfl, rfl⟩ := e2
                  exact absurd hgi hg
                | cons b' bs' =>
                  refine ih'.nopath ?_ (nt1 nt).2 (by simp) hgi E c he (by rw [s2.base]; exact w)
                  rw [s2.heur]; exact hc
              · intro nt hff hdd hmu
                have hret : ret = 1 := by
                  have n2 := (nt1 nt).1
                  rcases retCode_lt st1 gl with ⟨_, h⟩ | h | h
                  · exact absurd h hg
                  · rw [s9]; exact h
                  · exact absurd (s9.trans h) n2
                have hm := de.2 hff hdd hd
                have hmu1 : mu st1 = mu { st with eps := st.decrease.eps, epsSat := some st.decrease.eps } := by
                  simp only [mu, (s12 hret).1, if_true, s2.finalEps, s10]
                rw [← s2.finalEps]
                exact ih'.live (nt1 nt).2 (by rw [s2.first]; exact hff) (by rw [s2.decEps]; exact hdd)
                  (by rw [hmu1]; simp only [List.length_cons] at hmu; omega)
    next hd =>
      have hx : ∃ e, st.epsSat = some e ∧ e ≤ st.finalEps := by
        unfold notDone at hd
        cases e : st.epsSat with
        | none => rw [e] at hd; simp at hd
        | some x =>
          rw [e] at hd
          simp only [decide_eq_true_eq] at hd
          exact ⟨x, rfl, by omega⟩
      obtain ⟨x, hx1, hx2⟩ := hx
      have sa := i.satAcc x hx1
      refine ⟨i, SFrame.refl _, fun _ => sa.1, by simp, by simp, by simp, fun _ h _ => h, ?_, fun _ _ _ _ => .inl ⟨x, hx1, hx2⟩⟩
      intro _ _ _ hg
      have := sa.2
      rw [G_acc sa.1, hg] at this
      exact absurd this (Nat.lt_irrefl _)

/-- invariant of a planner that needs no re-initialisation -/
structure Live (st : ARA) (s0 gl : Nat) : Prop where
  core : Core st s0 0 []
  start : st.start = some s0
  goal : st.goal = some gl
  k1 : K1 st
  hok : st.bReeval = false → HOk st gl
  keys : st.bReeval = false → Keys st
  phase : st.bNew = false → Phase st
  satAcc : ∀ e, st.epsSat = some e → st.acc gl ∧ st.G gl < INF
  jj : st.bNew = false → J st s0 gl
  sat : st.heur gl gl = 0 → ∀ e, st.epsSat = some e →
    ∀ (E : Bnd) c, E.M ≤ E.N → UpTo st.base (st.heur gl) st.D e E.N E.M → Walk st.base s0 gl c → E.M * st.G gl ≤ E.N * c

/-- invariant between interface calls -/
structure Api (st : ARA) : Prop where
  data : Data st
  live : st.bReinit = false → ∃ s0 gl, Live st s0 gl

theorem SInv.api {st : ARA} {s0 gl : Nat} (i : SInv st s0 gl) : Api st :=
  ⟨i.data, fun _ => ⟨s0, gl, i.core, i.start, i.goal, i.k1, fun _ => i.hok, i.keys, i.phase, i.satAcc, i.jj, i.sat⟩⟩

theorem SInv.next {st : ARA} {s0 gl : Nat} (i : SInv st s0 gl) (nx : Nat → Option Nat)
    (h : st.fwd = false → nx = st.next) : SInv { st with next := nx } s0 gl := by
  have pe : ({ st with next := nx } : ARA).ptr = st.ptr := by
    funext s; simp only [ptr]
    by_cases f : st.fwd = true
    · rw [if_pos f, if_pos f]
    · rw [if_neg f, if_neg f, h (by simpa using f)]
  refine ⟨⟨i.data.bp, i.data.ord, i.data.lrel, i.data.callLe, i.data.staleH, i.data.staleL⟩,
    ⟨i.core.startAcc, i.core.startG, i.core.gv, i.core.vInf, i.core.iterLe, i.core.edge, ?_,
      i.core.openLt, i.core.incLt, i.core.ltIn, i.core.disj⟩,
    i.start, i.goal, i.hok, i.k1, i.reinit, i.keys, ?_, i.satAcc, ?_, i.sat⟩
  · intro s a b c
    obtain ⟨p, k, h1, h2, h3, h4⟩ := i.core.ptrOk s a b c
    exact ⟨p, k, by rw [pe]; exact h1, h2, h3, h4⟩
  · intro hb; have p := i.phase hb; exact ⟨p.it, p.opn, p.inc⟩
  · intro hb E he; exact i.jj hb E ⟨he.one, he.le⟩

theorem searchProlog_spec {st : ARA} {s0 gl : Nat} (i : Api st) (h0 : st.start = some s0) (hg : st.goal = some gl) :
    OkOr (st.searchProlog gl) (fun st' => SInv st' s0 gl ∧ (st.bReinit = true → st'.acc gl) ∧
      st'.env = st.env ∧ st'.fwd = st.fwd ∧ st'.D = st.D ∧ st'.start = st.start ∧ st'.goal = st.goal ∧
      st'.initEps = st.initEps ∧ st'.finalEps = st.finalEps ∧ st'.decEps = st.decEps ∧ st'.first = st.first ∧
      (∀ B, st.eps ≤ B → st.initEps ≤ B → st'.eps ≤ B)) := by
  unfold searchProlog
  generalize hst : (if st.bReeval = true then st.reevalH gl else st) = st1
  have hd : Data st1 := by
    rw [← hst]; split
    · exact ⟨i.data.bp, i.data.ord, i.data.lrel, i.data.callLe, i.data.staleH, i.data.staleL⟩
    · exact i.data
  have fl : st1.env = st.env ∧ st1.fwd = st.fwd ∧ st1.D = st.D ∧ st1.start = st.start ∧ st1.goal = st.goal ∧
      st1.initEps = st.initEps ∧ st1.finalEps = st.finalEps ∧ st1.decEps = st.decEps ∧ st1.first = st.first ∧
      st1.eps = st.eps ∧ st1.bReinit = st.bReinit := by
    rw [← hst]; split <;> exact ⟨rfl, rfl, rfl, rfl, rfl, rfl, rfl, rfl, rfl, rfl, rfl⟩
  obtain ⟨k1, k2, k3, k4, k5, k6, k7, k8, k9, k10, k11⟩ := fl
  simp only
  split
  next hr =>
    have eB : ∀ st', st1.reinitSpace = .ok st' → st'.eps = st1.initEps := by
      intro st' e
      have h0' : st1.start = some s0 := k4.trans h0
      have hg' : st1.goal = some gl := k5.trans hg
      unfold reinitSpace at e
      rw [h0', hg'] at e
      simp only at e
      unfold reinitFrom at e
      split at e
      · cases e
      · simp only at e
        split at e
        · cases e
        · cases e
          simp only
          unfold touch reinitState
          simp only
          split_ifs <;> rfl
    have sp := reinitSpace_spec hd (k4.trans h0) (k5.trans hg)
    cases e : st1.reinitSpace with
    | error x => rw [e] at sp; exact sp
    | ok st' =>
      rw [e] at sp
      obtain ⟨j1, j2, j3, j4, j5, j6, j7, j8, j9, j10, j11⟩ := sp
      exact ⟨j1, fun _ => j2, j3.trans k1, j4.trans k2, j5.trans k3, j6.trans k4, j7.trans k5, j8.trans k6, j9.trans k7,
        j10.trans k8, j11.trans k9, fun B _ h2 => by rw [eB st' e, k6]; exact h2⟩
  next hr =>
    have hr' : st.bReinit = false := by rw [← k11]; simpa using hr
    obtain ⟨s0', gl', l⟩ := i.live hr'
    have e1 : s0' = s0 := by have := l.start; rw [h0] at this; cases this; rfl
    have e2 : gl' = gl := by have := l.goal; rw [hg] at this; cases this; rfl
    subst e1 e2
    refine ⟨?_, (fun h => by rw [hr'] at h; exact absurd h (by simp)), k1, k2, k3, k4, k5, k6, k7, k8, k9, fun B h _ => by rw [k10]; exact h⟩
    rw [← hst]
    split
    next hb =>
      refine ⟨⟨i.data.bp, i.data.ord, i.data.lrel, i.data.callLe, i.data.staleH, i.data.staleL⟩,
        ⟨l.core.startAcc, l.core.startG, l.core.gv, l.core.vInf, l.core.iterLe, l.core.edge, l.core.ptrOk,
          l.core.openLt, l.core.incLt, l.core.ltIn, l.core.disj⟩, l.start, l.goal, fun _ _ => rfl, l.k1, hr', ?_, ?_,
          l.satAcc, ?_, l.sat⟩
      · intro x
        have x' : st.bReeval = false := x
        rw [hb] at x'; cases x'
      · intro hb; have p := l.phase hb; exact ⟨p.it, p.opn, p.inc⟩
      · intro hb E he; exact l.jj hb E ⟨he.one, he.le⟩
    next hb =>
      have hb' : st.bReeval = false := by simpa using hb
      exact ⟨i.data, l.core, l.start, l.goal, l.hok hb', l.k1, hr', l.keys, l.phase, l.satAcc, l.jj, l.sat⟩

structure RPost (st : ARA) (s0 gl : Nat) (bs : List Nat) (r : ARA × Result) : Prop where
  api : Api r.1
  env : r.1.env = st.env
  fwd : r.1.fwd = st.fwd
  D : r.1.D = st.D
  start : r.1.start = st.start
  goal : r.1.goal = st.goal
  initEps : r.1.initEps = st.initEps
  finalEps : r.1.finalEps = st.finalEps
  epsB : ∀ B, st.eps ≤ B → st.initEps ≤ B → st.finalEps ≤ B → r.1.eps ≤ B
  nodup : ∀ tr ∈ r.2.traces, tr.Nodup
  noGoal : ∀ tr ∈ r.2.traces, gl ∉ tr
  reach : ∀ tr ∈ r.2.traces, ∀ s ∈ tr, ∃ c, Walk st.base s0 s c
  path : r.2.found = true →
    FromTo r.2.path (envStart st.fwd s0 gl) (envGoal st.fwd s0 gl) ∧ r.2.path.Nodup ∧
    ∃ n, PathCost (st.env.succs (envGoal st.fwd s0 gl)) r.2.path n ∧ n ≤ r.2.cost ∧ r.2.cost < INF
  nfound : r.2.found = false → r.2.path = [] ∧ r.2.cost = INF
  sat : st.heur gl gl = 0 → ∀ e, r.2.finalEps = some e → ∀ (E : Bnd) c, E.M ≤ E.N →
    UpTo st.base (st.heur gl) st.D e E.N E.M →
    Walk st.base s0 gl c → r.2.found = true ∧ E.M * r.2.cost ≤ E.N * c
  nopath : st.heur gl gl = 0 → NoTimeout bs r.2.traces → bs ≠ [] → r.2.found = false →
    ∀ (E : Bnd) B c, E.M ≤ E.N → (∀ e, e ≤ B → UpTo st.base (st.heur gl) st.D e E.N E.M) →
    st.eps ≤ B → st.initEps ≤ B → st.finalEps ≤ B →
    Walk st.base s0 gl c → E.M * INF ≤ E.N * c
  live : NoTimeout bs r.2.traces → st.first = false → 1 ≤ st.decEps →
    (∀ M, st.eps ≤ M + st.finalEps → st.initEps ≤ M + st.finalEps → M + 1 ≤ bs.length →
    (∃ e, r.2.finalEps = some e ∧ e ≤ st.finalEps) ∨ r.2.found = false)

theorem replan_spec {st : ARA} {s0 gl : Nat} (bs : List Nat) (i : Api st) (he : EnvOk st.env)
    (h0 : st.start = some s0) (hg : st.goal = some gl) (hb : bs ≠ [] ∨ st.bReinit = true) :
    OkOr (st.replan bs) (RPost st s0 gl bs) := by
  unfold replan
  have sp := searchProlog_spec i h0 hg
  rw [h0, hg]
  simp only
  cases e1 : st.searchProlog gl with
  | error x => rw [e1] at sp; exact sp
  | ok st1 =>
    rw [e1] at sp
    obtain ⟨i1, a1, k1, k2, k3, k4, k5, k6, k7, k8, k9, k10⟩ := sp
    have ls := searchLoop_spec bs i1 (envOk_nbr (by rw [k1]; exact he) i1.goal)
    simp only
    cases e2 : searchLoop gl bs st1 with
    | error x => rw [e2] at ls; exact ls
    | ok r =>
      rw [e2] at ls
      obtain ⟨st2, trs⟩ := r
      have l1 := ls.inv; have l2 := ls.frame; have l3 := ls.accG
      simp only at l1 l2 l3
      have ag : st2.acc gl := by
        rcases hb with hb | hb
        · exact l3 hb
        · exact l2.accM gl (a1 hb)
      have baseE : st1.base = st.base := by funext s; simp only [base, k1, k2, k4]
      have heurE : st1.heur = st.heur := by funext x y; simp only [heur, k1, k2]
      have pos : Pos st1 := envOk_base (by rw [k1]; exact he)
      have envE : st2.env = st.env := l2.env.trans k1
      have fwdE : st2.fwd = st.fwd := l2.fwd.trans k2
      have DE : st2.D = st.D := l2.D.trans k3
      have fin2 : st2.g gl ≤ INF := by
        have := l1.core.GV gl; rw [G_acc ag] at this; omega
      have epsB : ∀ B, st.eps ≤ B → st.initEps ≤ B → st.finalEps ≤ B → st2.eps ≤ B := by
        intro B h1 h2 h3
        exact ls.epsB B (k10 B h1 h2) (by rw [k7]; exact h3)
      have sat2 : st.heur gl gl = 0 → ∀ e, st2.epsSat = some e → ∀ (E : Bnd) c, E.M ≤ E.N →
          UpTo st.base (st.heur gl) st.D e E.N E.M →
          Walk st.base s0 gl c → E.M * st2.g gl ≤ E.N * c := by
        intro hc e he' E c h1 h2 w
        rw [← G_acc ag]
        refine l1.sat ?_ e he' E c h1 (by rw [DE, l2.base, l2.heur, baseE, heurE]; exact h2) (by rw [l2.base, baseE]; exact w)
        rw [l2.heur, heurE]; exact hc
      have live2 : NoTimeout bs trs → st.first = false → 1 ≤ st.decEps →
          ∀ M, st.eps ≤ M + st.finalEps → st.initEps ≤ M + st.finalEps → M + 1 ≤ bs.length →
          (∃ e, st2.epsSat = some e ∧ e ≤ st.finalEps) ∨ st2.g gl = INF := by
        intro nt hf hd M h1 h2 h3
        have e := k10 (M + st.finalEps) h1 h2
        rw [← k7]
        refine ls.live nt (by rw [k9]; exact hf) (by rw [k8]; exact hd) ?_
        have : mu st1 ≤ 1 + (st1.eps - st1.finalEps) := by unfold mu; split <;> omega
        rw [k7] at this
        omega
      have rch : ∀ tr ∈ trs, ∀ s ∈ tr, ∃ c, Walk st.base s0 s c := by
        have := ls.reach pos; rw [baseE] at this; exact this
      simp only
      split
      next hx =>
        refine ⟨l1.api, envE, fwdE, DE, l2.start.trans k4, l2.goal.trans k5, l2.initEps.trans k6, l2.finalEps.trans k7, epsB, ls.nodup, ls.noGoal, rch,
          by simp, fun _ => ⟨rfl, hx⟩, ?_, ?_, ?_⟩
        · intro hc e he' E c h1 h2 w
          have := (l1.satAcc e he').2
          rw [G_acc ag, hx] at this
          exact absurd this (Nat.lt_irrefl _)
        · intro hc nt hne _ E B c h1 hB h2 h3 h4 w
          refine ls.nopath (by rw [heurE]; exact hc) nt hne hx E c ⟨h1, ?_⟩ (by rw [baseE]; exact w)
          rw [show st2.D = st.D from DE, l2.base, l2.heur, baseE, heurE]
          exact hB _ (epsB _ h2 h3 h4)
        · intro _ _ _ _ _ _ _; exact .inr rfl
      next hx =>
        have lt : st2.g gl < INF := by
          have hx' : st2.g gl ≠ INF := hx
          omega
        obtain ⟨nx, p, c, n, q1, q2, q3, q4, q5, q6⟩ := getSearchPath_spec l1 (by rw [envE]; exact he) ag lt
        rw [q1]
        simp only
        rw [fwdE] at q3
        rw [fwdE, envE] at q5
        refine ⟨(l1.next nx q2).api, envE, fwdE, DE, l2.start.trans k4, l2.goal.trans k5, l2.initEps.trans k6, l2.finalEps.trans k7, epsB, ls.nodup, ls.noGoal, rch,
          fun _ => ⟨q3, q4, n, q5, q6, lt⟩, by simp, ?_, by simp, ?_⟩
        · intro hc e he' E c h1 h2 w
          exact ⟨rfl, sat2 hc e he' E c h1 h2 w⟩
        · intro nt hf hd M h1 h2 h3
          rcases live2 nt hf hd M h1 h2 h3 with h | h
          · exact .inl h
          · exact absurd h (by omega)

theorem init_api (env : PEnv) (fwd : Bool) (D a b c : Nat) (f : Bool) : Api (init env fwd D a b c f) := by
  refine ⟨⟨?_, ?_, ⟨[], ⟨CList.rel_mk0⟩⟩, fun _ => Nat.le_refl _, fun _ _ => rfl, fun _ _ => rfl⟩, by simp [init]⟩
  · constructor
    · intro i h1 h2; simp [init, Heap.mk0] at h2; omega
    · intro s h; simp [init, Heap.mk0] at h
  · intro i h1 h2; simp [init, Heap.mk0] at h2; omega

theorem setSearchGoal_api {st : ARA} (i : Api st) (s : Nat) : Api (st.setSearchGoal s) := by
  unfold setSearchGoal
  split
  · exact i
  · refine ⟨⟨i.data.bp, i.data.ord, i.data.lrel, i.data.callLe, i.data.staleH, i.data.staleL⟩, ?_⟩
    intro hr
    obtain ⟨s0, gl, l⟩ := i.live hr
    exact ⟨s0, s, ⟨l.core.startAcc, l.core.startG, l.core.gv, l.core.vInf, l.core.iterLe, l.core.edge, l.core.ptrOk,
          l.core.openLt, l.core.incLt, l.core.ltIn, l.core.disj⟩, l.start, rfl, l.k1, by simp, by simp, by simp, by simp,
          by simp, by simp⟩

theorem setSearchStart_api {st : ARA} (i : Api st) (s : Nat) : Api (st.setSearchStart s) := by
  unfold setSearchStart
  split
  · exact i
  · exact ⟨⟨i.data.bp, i.data.ord, i.data.lrel, i.data.callLe, i.data.staleH, i.data.staleL⟩, by simp⟩

structure Good (st : ARA) : Prop where
  api : Api st
  env : EnvOk st.env

theorem replan_start {st : ARA} {bs : List Nat} {r : ARA × Result} (h : st.replan bs = .ok r) :
    ∃ s0 gl, st.start = some s0 ∧ st.goal = some gl := by
  unfold replan at h
  split at h
  · cases h
  · cases h
  next s0 gl h0 hg => exact ⟨s0, gl, h0, hg⟩

theorem step_good {st st' : ARA} (op : Op) (g : Good st) (ok : OpOk op) (h : st.step op = some st') : Good st' := by
  obtain ⟨i, he⟩ := g
  cases op with
  | setStart s =>
    cases h
    unfold setStart
    split
    · refine ⟨setSearchStart_api i s, ?_⟩; unfold setSearchStart; split <;> exact he
    · refine ⟨setSearchGoal_api i s, ?_⟩; unfold setSearchGoal; split <;> exact he
  | setGoal s =>
    cases h
    unfold setGoal
    split
    · refine ⟨setSearchGoal_api i s, ?_⟩; unfold setSearchGoal; split <;> exact he
    · refine ⟨setSearchStart_api i s, ?_⟩; unfold setSearchStart; split <;> exact he
  | costsChanged env =>
    cases h
    exact ⟨⟨⟨i.data.bp, i.data.ord, i.data.lrel, i.data.callLe, i.data.staleH, i.data.staleL⟩, by simp [costsChanged]⟩, ok⟩
  | forceScratch =>
    cases h
    exact ⟨⟨⟨i.data.bp, i.data.ord, i.data.lrel, i.data.callLe, i.data.staleH, i.data.staleL⟩, by simp [forceScratch]⟩, he⟩
  | setParams a b c d =>
    cases h
    refine ⟨⟨⟨i.data.bp, i.data.ord, i.data.lrel, i.data.callLe, i.data.staleH, i.data.staleL⟩, ?_⟩, he⟩
    intro hr
    obtain ⟨s0, gl, l⟩ := i.live hr
    refine ⟨s0, gl, ⟨l.core.startAcc, l.core.startG, l.core.gv, l.core.vInf, l.core.iterLe, l.core.edge, l.core.ptrOk,
          l.core.openLt, l.core.incLt, l.core.ltIn, l.core.disj⟩, l.start, l.goal, l.k1, l.hok, l.keys, ?_, l.satAcc, ?_, l.sat⟩
    · intro hb; have p := l.phase hb; exact ⟨p.it, p.opn, p.inc⟩
    · intro hb E he; exact l.jj hb E ⟨he.one, he.le⟩
  | replan bs =>
    simp only [step] at h
    cases e : st.replan bs with
    | error x => rw [e] at h; cases h
    | ok r =>
      rw [e] at h
      cases h
      obtain ⟨s0, gl, h0, hg⟩ := replan_start e
      have sp := replan_spec bs i he h0 hg (.inl ok)
      rw [e] at sp
      exact ⟨sp.api, by rw [sp.env]; exact he⟩

theorem run_good (ops : List Op) : ∀ {st st' : ARA}, Good st → (∀ op ∈ ops, OpOk op) → st.run ops = some st' →
    Good st' := by
  induction ops with
  | nil => intro st st' g _ h; cases h; exact g
  | cons op ops ih =>
    intro st st' g ok h
    unfold run at h
    cases e : st.step op with
    | none => rw [e] at h; cases h
    | some st1 =>
      rw [e] at h
      exact ih (step_good op g (ok op (by simp)) e) (fun o ho => ok o (by simp [ho])) h

theorem walk_mono {s1 s2 : Nat → List (Nat × Nat)} (h : ∀ s e, e ∈ s1 s → e ∈ s2 s) {a b n : Nat} (w : Walk s1 a b n) :
    Walk s2 a b n := by
  induction w with
  | nil => exact .nil
  | snoc _ hm ih => exact ih.snoc (h _ _ hm)

theorem walk_cons {succ : Nat → List (Nat × Nat)} {a b t n c : Nat} (hm : (b, c) ∈ succ a) (w : Walk succ b t n) :
    Walk succ a t (c + n) := by
  induction w with
  | nil => have := Walk.snoc (Walk.nil (succ := succ) (a := a)) hm; simpa using this
  | snoc _ h ih => rw [← Nat.add_assoc]; exact ih.snoc h

theorem walk_rev {s1 s2 : Nat → List (Nat × Nat)} {a b n : Nat}
    (h : ∀ s t c n, Walk s1 a s n → (t, c) ∈ s1 s → (s, c) ∈ s2 t)
    (w : Walk s1 a b n) : Walk s2 b a n := by
  induction w with
  | nil => exact .nil
  | snoc w hm ih => rw [Nat.add_comm]; exact walk_cons (h _ _ _ _ w hm) ih

/-- a walk of the environment's graph is a walk of the search graph -/
theorem walk_base {st : ARA} (he : EnvOk st.env) {s0 gl : Nat} (h0 : st.start = some s0) (hg : st.goal = some gl) {c : Nat}
    (hp : st.fwd = false → PredsOk st.env (envStart st.fwd s0 gl))
    (w : Walk (st.env.succs (envGoal st.fwd s0 gl)) (envStart st.fwd s0 gl) (envGoal st.fwd s0 gl) c) :
    Walk st.base s0 gl c := by
  unfold envGoal envStart at w
  unfold envStart at hp
  by_cases f : st.fwd = true
  · simp only [if_pos f] at w
    refine walk_mono ?_ w
    have := (envOk_nbr he hg).1
    intro s e h
    apply this
    simp only [nbr, if_pos f, hg, Option.getD_some]; exact h
  · simp only [if_neg f] at w
    have hb : st.base = st.env.preds s0 := by
      funext s; simp only [base, if_neg f, h0, Option.getD_some]
    rw [hb]
    rw [if_neg f] at hp
    exact walk_rev (hp (by simpa using f) s0) w

theorem upTo_base {st : ARA} (he : EnvOk st.env) {D e N M : Nat} (hh : HeurUpTo st.env st.fwd D e N M) {s0 gl : Nat}
    (h0 : st.start = some s0) : st.heur gl gl = 0 ∧ UpTo st.base (st.heur gl) D e N M := by
  unfold HeurUpTo at hh
  by_cases f : st.fwd = true
  · simp only [if_pos f] at hh
    have he' : st.heur gl = st.env.hGoal gl := by funext s; simp only [heur, if_pos f]
    rw [he']
    refine ⟨(hh gl).1, ?_⟩
    intro s t c hm
    by_cases q : s = gl
    · subst q; rw [(hh s).1]; simp
    · simp only [base, if_pos f] at hm
      rw [he.goalIndep (s + 1) gl s (by omega) q] at hm
      exact (hh gl).2 s t c hm
  · simp only [if_neg f] at hh
    have he' : st.heur gl = st.env.hStart gl := by funext s; simp only [heur, if_neg f]
    have hb : st.base = st.env.preds s0 := by
      funext s; simp only [base, if_neg f, h0, Option.getD_some]
    rw [he', hb]
    exact hh s0 gl

theorem upTo_of_consistent {succ : Nat → List (Nat × Nat)} {gl : Nat} {h : Nat → Nat} (hc : Consistent succ gl h)
    {D e E : Nat} (he : e ≤ E * D) : UpTo succ h D e E 1 := by
  intro s t c hm
  have h1 := infl_mono (D := D) (e := e) (hc.2 s t c hm)
  have h2 := infl_add (D := D) (e := e) (h t) c he
  unfold infl at h1 h2
  omega

theorem upTo_of_consistent_min {succ : Nat → List (Nat × Nat)} {gl : Nat} {h : Nat → Nat} (hc : Consistent succ gl h)
    {D e m : Nat} (hD : 0 < D) (hm : ∀ s t c, (t, c) ∈ succ s → m ≤ c) : UpTo succ h D e (e * m + D) (D * m) := by
  intro s t c hmem
  have h1 := hc.2 s t c hmem
  have h2 := hm s t c hmem
  have a1 : D * (e * h s / D) ≤ e * h s := Nat.mul_div_le _ _
  have a2 : e * h t < D * (e * h t / D + 1) := Nat.lt_mul_div_succ _ hD
  have a3 : e * h s ≤ e * (h t + c) := Nat.mul_le_mul_left _ h1
  generalize e * h s / D = x at *
  generalize e * h t / D = y at *
  have a4 : D * x ≤ D * y + D + e * c := by nlinarith
  have a5 := Nat.mul_le_mul_left m a4
  have a6 := Nat.mul_le_mul_left D h2
  nlinarith

theorem heurUpTo_of_heurOk {env : PEnv} {fwd : Bool} (hh : HeurOk env fwd) {D e E : Nat} (he : e ≤ E * D) :
    HeurUpTo env fwd D e E 1 := by
  unfold HeurOk at hh
  unfold HeurUpTo
  split at hh
  next f => rw [if_pos f]; exact fun gl => ⟨(hh gl).1, upTo_of_consistent (hh gl) he⟩
  next f => rw [if_neg f]; exact fun gl s => ⟨(hh gl s).1, upTo_of_consistent (hh gl s) he⟩

theorem heurUpTo_of_min {env : PEnv} {fwd : Bool} (hh : HeurOk env fwd) {D e m : Nat} (hD : 0 < D)
    (hm : CostsAtLeast env m) : HeurUpTo env fwd D e (e * m + D) (D * m) := by
  unfold HeurOk at hh
  unfold HeurUpTo
  split at hh
  next f => rw [if_pos f]; exact fun gl => ⟨(hh gl).1, upTo_of_consistent_min (hh gl) hD (hm.1 gl)⟩
  next f => rw [if_neg f]; exact fun gl s => ⟨(hh gl s).1, upTo_of_consistent_min (hh gl s) hD (hm.2 gl)⟩

/-- the planner's start (goal) as set through the interface -/
def planStart (st : ARA) : Option Nat := if st.fwd then st.start else st.goal
def planGoal (st : ARA) : Option Nat := if st.fwd then st.goal else st.start

structure Tracks (a b : ARA) (ops : List Op) : Prop where
  fwd : b.fwd = a.fwd
  D : b.D = a.D
  start : b.planStart = (lastStart ops).or a.planStart
  goal : b.planGoal = (lastGoal ops).or a.planGoal
  env : b.env = lastEnv a.env ops

theorem setSearchGoal_fields (st : ARA) (s : Nat) : (st.setSearchGoal s).fwd = st.fwd ∧ (st.setSearchGoal s).D = st.D ∧
    (st.setSearchGoal s).start = st.start ∧ (st.setSearchGoal s).goal = some s ∧ (st.setSearchGoal s).env = st.env := by
  unfold setSearchGoal
  split
  next h => exact ⟨rfl, rfl, rfl, h, rfl⟩
  · exact ⟨rfl, rfl, rfl, rfl, rfl⟩

theorem setSearchStart_fields (st : ARA) (s : Nat) : (st.setSearchStart s).fwd = st.fwd ∧ (st.setSearchStart s).D = st.D ∧
    (st.setSearchStart s).start = some s ∧ (st.setSearchStart s).goal = st.goal ∧ (st.setSearchStart s).env = st.env := by
  unfold setSearchStart
  split
  next h => exact ⟨rfl, rfl, h, rfl, rfl⟩
  · exact ⟨rfl, rfl, rfl, rfl, rfl⟩

theorem step_tracks {st st' : ARA} (op : Op) (g : Good st) (ok : OpOk op) (h : st.step op = some st') :
    Tracks st st' [op] := by
  cases op with
  | setStart s =>
    cases h
    unfold setStart
    by_cases f : st.fwd = true
    · rw [if_pos f]
      obtain ⟨a, b, c, d, e⟩ := setSearchStart_fields st s
      exact ⟨a, b, by simp [planStart, a, f, c, lastStart], by simp [planGoal, a, f, d, lastGoal], e⟩
    · rw [if_neg f]
      obtain ⟨a, b, c, d, e⟩ := setSearchGoal_fields st s
      exact ⟨a, b, by simp [planStart, a, f, d, lastStart], by simp [planGoal, a, f, c, lastGoal], e⟩
  | setGoal s =>
    cases h
    unfold setGoal
    by_cases f : st.fwd = true
    · rw [if_pos f]
      obtain ⟨a, b, c, d, e⟩ := setSearchGoal_fields st s
      exact ⟨a, b, by simp [planStart, a, f, c, lastStart], by simp [planGoal, a, f, d, lastGoal], e⟩
    · rw [if_neg f]
      obtain ⟨a, b, c, d, e⟩ := setSearchStart_fields st s
      exact ⟨a, b, by simp [planStart, a, f, d, lastStart], by simp [planGoal, a, f, c, lastGoal], e⟩
  | costsChanged env => cases h; exact ⟨rfl, rfl, rfl, rfl, rfl⟩
  | forceScratch => cases h; exact ⟨rfl, rfl, rfl, rfl, rfl⟩
  | setParams a b c d => cases h; exact ⟨rfl, rfl, rfl, rfl, rfl⟩
  | replan bs =>
    simp only [step] at h
    cases e : st.replan bs with
    | error x => rw [e] at h; cases h
    | ok r =>
      rw [e] at h
      cases h
      obtain ⟨s0, gl, h0, hg⟩ := replan_start e
      have sp := replan_spec bs g.api g.env h0 hg (.inl ok)
      rw [e] at sp
      refine ⟨sp.fwd, sp.D, ?_, ?_, sp.env⟩
      · simp only [planStart, sp.fwd, sp.start, sp.goal]; rfl
      · simp only [planGoal, sp.fwd, sp.start, sp.goal]; rfl

theorem lastStart_cons (op : Op) (ops : List Op) : lastStart (op :: ops) = (lastStart ops).or (lastStart [op]) := by
  cases op <;> simp [lastStart]
theorem lastGoal_cons (op : Op) (ops : List Op) : lastGoal (op :: ops) = (lastGoal ops).or (lastGoal [op]) := by
  cases op <;> simp [lastGoal]
theorem lastEnv_cons (env : PEnv) (op : Op) (ops : List Op) : lastEnv env (op :: ops) = lastEnv (lastEnv env [op]) ops := by
  cases op <;> simp [lastEnv]

theorem run_tracks (ops : List Op) : ∀ {st st' : ARA}, Good st → (∀ op ∈ ops, OpOk op) → st.run ops = some st' →
    Tracks st st' ops := by
  induction ops with
  | nil => intro st st' g _ h; cases h; exact ⟨rfl, rfl, by simp [lastStart], by simp [lastGoal], rfl⟩
  | cons op ops ih =>
    intro st st' g ok h
    unfold run at h
    cases e : st.step op with
    | none => rw [e] at h; cases h
    | some st1 =>
      rw [e] at h
      have t1 := step_tracks op g (ok op (by simp)) e
      have t2 := ih (step_good op g (ok op (by simp)) e) (fun o ho => ok o (by simp [ho])) h
      refine ⟨t2.fwd.trans t1.fwd, t2.D.trans t1.D, ?_, ?_, ?_⟩
      · rw [lastStart_cons op ops, Option.or_assoc, ← t1.start]; exact t2.start
      · rw [lastGoal_cons op ops, Option.or_assoc, ← t1.goal]; exact t2.goal
      · rw [t2.env, t1.env, ← lastEnv_cons]

/-- all eps values stay within the requested ones -/
structure EpsBd (st : ARA) (B : Nat) : Prop where
  eps : st.eps ≤ B
  ini : st.initEps ≤ B
  fin : st.finalEps ≤ B

theorem step_epsBd {st st' : ARA} {B : Nat} (op : Op) (g : Good st) (ok : OpOk op) (h : st.step op = some st')
    (hop : ∀ a b c d, op = .setParams a b c d → a ≤ B ∧ b ≤ B) (e : EpsBd st B) : EpsBd st' B := by
  have sg : ∀ s, EpsBd (st.setSearchGoal s) B := by
    intro s; unfold setSearchGoal; split
    · exact e
    · exact ⟨e.ini, e.ini, e.fin⟩
  have ss : ∀ s, EpsBd (st.setSearchStart s) B := by
    intro s; unfold setSearchStart; split
    · exact e
    · exact ⟨e.eps, e.ini, e.fin⟩
  cases op with
  | setStart s => cases h; unfold setStart; split; exact ss s; exact sg s
  | setGoal s => cases h; unfold setGoal; split; exact sg s; exact ss s
  | costsChanged env => cases h; exact ⟨e.eps, e.ini, e.fin⟩
  | forceScratch => cases h; exact ⟨e.eps, e.ini, e.fin⟩
  | setParams a b c d =>
    cases h
    obtain ⟨x, y⟩ := hop a b c d rfl
    exact ⟨e.eps, x, y⟩
  | replan bs =>
    simp only [step] at h
    cases e' : st.replan bs with
    | error x => rw [e'] at h; cases h
    | ok r =>
      rw [e'] at h
      cases h
      obtain ⟨s0, gl, h0, hg⟩ := replan_start e'
      have sp := replan_spec bs g.api g.env h0 hg (.inl ok)
      rw [e'] at sp
      exact ⟨sp.epsB B e.eps e.ini e.fin, by rw [sp.initEps]; exact e.ini, by rw [sp.finalEps]; exact e.fin⟩

theorem run_epsBd {B : Nat} (ops : List Op) : ∀ {st st' : ARA}, Good st → (∀ op ∈ ops, OpOk op) → st.run ops = some st' →
    (∀ op ∈ ops, ∀ a b c d, op = .setParams a b c d → a ≤ B ∧ b ≤ B) → EpsBd st B → EpsBd st' B := by
  induction ops with
  | nil => intro st st' _ _ h _ e; cases h; exact e
  | cons op ops ih =>
    intro st st' g ok h hop e
    unfold run at h
    cases e1 : st.step op with
    | none => rw [e1] at h; cases h
    | some st1 =>
      rw [e1] at h
      exact ih (step_good op g (ok op (by simp)) e1) (fun o ho => ok o (by simp [ho])) h (fun o ho => hop o (by simp [ho]))
        (step_epsBd op g (ok op (by simp)) e1 (hop op (by simp)) e)

theorem nodup_length_le {α : Type} [DecidableEq α] {L R : List α} (nd : L.Nodup) (h : ∀ x ∈ L, x ∈ R) : L.length ≤ R.length := by
  induction L generalizing R with
  | nil => simp
  | cons a L ih =>
    have ha := h a (by simp)
    obtain ⟨n1, n2⟩ := List.nodup_cons.mp nd
    have := ih (R := R.erase a) n2 (by
      intro x hx
      have : x ≠ a := by rintro rfl; exact n1 hx
      exact (List.mem_erase_of_ne this).mpr (h x (by simp [hx])))
    rw [List.length_erase_of_mem ha] at this
    have := List.length_pos_of_mem ha
    simp only [List.length_cons]; omega

end Sbpl.ARA
