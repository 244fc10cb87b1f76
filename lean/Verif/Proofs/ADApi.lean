import Verif.Proofs.ADChange
/-! AD*: replan and histories of interface calls. -/

namespace Sbpl.AD
open GraphSpec ARA Heap PlannerSpec ADSpec

/-- invariant of a planner that needs no re-initialisation -/
structure Live (F : Prop) (m : Nat) (ab : Option Nat) (st : ARA) (s0 gl : Nat) : Prop where
  p : PInv st (grOf st.env st.fwd m ab s0 gl) gl F
  hok : st.bReeval = false → HOk st gl

/-- invariant between interface calls -/
structure Api (F : Prop) (m : Nat) (ab : Option Nat) (E : Nat) (st : ARA) : Prop where
  data : Data st
  env : EnvAD st.env st.fwd m ab
  goalOk : st.fwd = true → ∀ gl, st.goal = some gl → ab = none ∨ ab = some gl
  live : st.bReinit = false → ∃ s0 gl, Live F m ab st s0 gl
  dp : 0 < st.D
  ini : st.D ≤ st.initEps ∧ st.initEps ≤ E * st.D
  fin : st.D ≤ st.finalEps ∧ st.finalEps ≤ E * st.D
  eps : st.D ≤ st.eps ∧ st.eps ≤ E * st.D
  satD : ∀ e, st.epsSat = some e → st.D ≤ e ∧ e ≤ E * st.D

/-- the heuristic values and the `next` pointers of a forward search are not part of the invariant -/
theorem PInv.next {st : ARA} {g : Gr} {gl : Nat} {F : Prop} (i : PInv st g gl F) (nx : Nat → Option Nat)
    (h : st.fwd = false → nx = st.next) : PInv { st with next := nx } g gl F := by
  have pe : ({ st with next := nx } : ARA).ptr = st.ptr := by
    funext s; simp only [ptr]
    by_cases f : st.fwd = true
    · rw [if_pos f, if_pos f]
    · rw [if_neg f, if_neg f, h (by simpa using f)]
  have ve : vals { st with next := nx } = vals st := by
    unfold vals; rw [pe]; rfl
  refine ⟨⟨⟨i.m.data.bp, i.m.data.ord, i.m.data.lrel, i.m.data.callLe, i.m.data.staleH, i.m.data.staleL⟩, i.m.mem,
    i.m.disj, i.m.it, i.m.opn, i.m.iterLe, i.m.inc, i.m.keys⟩,
    ⟨i.gr.base, i.gr.rev, i.gr.heur, i.gr.goal, i.gr.start, i.gr.nbr⟩, i.fresh, by rw [ve]; exact i.v,
    by rw [ve]; exact i.jn, i.cv, by rw [ve]; exact i.j, by rw [ve]; exact i.sat⟩

theorem PInv.reevalH {st : ARA} {g : Gr} {gl : Nat} {F : Prop} (i : PInv st g gl F) (hb : st.bReeval = true) :
    PInv (st.reevalH gl) g gl F := by
  refine ⟨⟨⟨i.m.data.bp, i.m.data.ord, i.m.data.lrel, i.m.data.callLe, i.m.data.staleH, i.m.data.staleL⟩, i.m.mem,
    i.m.disj, i.m.it, i.m.opn, i.m.iterLe, i.m.inc, ?_⟩,
    ⟨i.gr.base, i.gr.rev, i.gr.heur, i.gr.goal, i.gr.start, i.gr.nbr⟩, i.fresh, i.v, i.jn, i.cv, i.j, i.sat⟩
  intro h
  have h : st.bReeval = false := h
  rw [hb] at h; cases h

structure ProPost (F : Prop) (m : Nat) (ab : Option Nat) (E : Nat) (st : ARA) (s0 gl : Nat) (st' : ARA) : Prop where
  p : PInv (firstIter st') (grOf st.env st.fwd m ab s0 gl) gl F
  hok : HOk st' gl
  env : st'.env = st.env
  fwd : st'.fwd = st.fwd
  D : st'.D = st.D
  start : st'.start = st.start
  goal : st'.goal = st.goal
  initEps : st'.initEps = st.initEps
  finalEps : st'.finalEps = st.finalEps
  decEps : st'.decEps = st.decEps
  first : st'.first = st.first
  reinit : st'.bReinit = false
  eps : st.D ≤ st'.eps ∧ st'.eps ≤ E * st.D
  epsM : ∀ X, st.eps ≤ X → st.initEps ≤ X → st'.eps ≤ X
  satD : ∀ e, st'.epsSat = some e → st.D ≤ e ∧ e ≤ E * st.D
  it : st'.epsSat ≠ none → 1 ≤ st'.iter

theorem searchProlog_spec {F : Prop} {m : Nat} {ab : Option Nat} {E : Nat} {st : ARA} {s0 gl : Nat} (i : Api F m ab E st)
    (h0 : st.start = some s0) (hg : st.goal = some gl) :
    OkOr (searchProlog st gl) (ProPost F m ab E st s0 gl) := by
  unfold searchProlog
  generalize hst : (if st.bReeval = true then st.reevalH gl else st) = st1
  have hd : Data st1 := by
    rw [← hst]; split
    · exact ⟨i.data.bp, i.data.ord, i.data.lrel, i.data.callLe, i.data.staleH, i.data.staleL⟩
    · exact i.data
  have fl : st1.env = st.env ∧ st1.fwd = st.fwd ∧ st1.D = st.D ∧ st1.start = st.start ∧ st1.goal = st.goal ∧
      st1.initEps = st.initEps ∧ st1.finalEps = st.finalEps ∧ st1.decEps = st.decEps ∧ st1.first = st.first ∧
      st1.eps = st.eps ∧ st1.bReinit = st.bReinit ∧ st1.epsSat = st.epsSat := by
    rw [← hst]; split <;> exact ⟨rfl, rfl, rfl, rfl, rfl, rfl, rfl, rfl, rfl, rfl, rfl, rfl⟩
  obtain ⟨k1, k2, k3, k4, k5, k6, k7, k8, k9, k10, k11, k12⟩ := fl
  dsimp only
  split
  next hr =>
    have gi : IsGr st1 (grOf st.env st.fwd m ab s0 gl) gl := by
      have := grOf_is (st := st1) (m := m) (ab := ab) (s0 := s0) (gl := gl) (by rw [k1, k2]; exact i.env) (by rw [k4]; exact h0) (by rw [k5]; exact hg)
        (by rw [k2]; exact fun f => i.goalOk f gl hg)
      rw [k1, k2] at this; exact this
    refine (reinitSpace_spec (F := F) hd gi rfl).imp ?_
    rintro st' ⟨j1, j2, j3, j4, j5, j6, j7, j8, j9, j10, j11, j12, j13, j14, j15⟩
    refine ⟨j1, j2, j3.trans k1, j4.trans k2, j5.trans k3, j6.trans k4, j7.trans k5, j8.trans k6, j9.trans k7,
      j10.trans k8, j11.trans k9, j14, by rw [j12, k6]; exact i.ini, fun X _ h => by rw [j12, k6]; exact h, ?_, ?_⟩
    · intro e he; rw [j13] at he; cases he
    · intro h; exact absurd j13 h
  next hr =>
    have hr' : st.bReinit = false := by rw [← k11]; simpa using hr
    obtain ⟨s0', gl', l⟩ := i.live hr'
    have e1 : s0' = s0 := by
      have := l.p.gr.start
      change st.start = some s0' at this
      rw [h0] at this; cases this; rfl
    have e2 : gl' = gl := by have := l.p.gr.goal; rw [hg] at this; cases this; rfl
    subst e1 e2
    have q : PInv st1 (grOf st.env st.fwd m ab s0' gl') gl' F ∧ HOk st1 gl' := by
      rw [← hst]
      split
      next hb => exact ⟨l.p.reevalH hb, fun _ _ => rfl⟩
      next hb => exact ⟨l.p, l.hok (by simpa using hb)⟩
    have it1 := q.1.m.it
    exact ⟨by rw [firstIter_id it1]; exact q.1, q.2, k1, k2, k3, k4, k5, k6, k7, k8, k9, by rw [k11]; exact hr',
      by rw [k10]; exact i.eps, fun X h _ => by rw [k10]; exact h, by rw [k12]; exact i.satD, fun _ => it1⟩

structure RPost (F : Prop) (m : Nat) (ab : Option Nat) (E : Nat) (st : ARA) (s0 gl : Nat) (bs : List Nat)
    (r : ARA × Result) : Prop where
  api : Api F m ab E r.1
  env : r.1.env = st.env
  fwd : r.1.fwd = st.fwd
  D : r.1.D = st.D
  start : r.1.start = st.start
  goal : r.1.goal = st.goal
  two : ∀ tr ∈ r.2.traces, ∀ s, tr.count s ≤ 2
  path : r.2.found = true → r.2.cost < INF ∧ r.2.finalEps ≠ none ∧ ((r.2.path = [] ∧ maxSteps < r.2.cost) ∨
    (FromTo r.2.path (envStart st.fwd s0 gl) (envGoal st.fwd s0 gl) ∧ r.2.path.Nodup ∧
      ∃ n, PathCost (st.env.succs (envGoal st.fwd s0 gl)) r.2.path n ∧ n ≤ r.2.cost))
  nfound : r.2.found = false → r.2.path = [] ∧ r.2.finalEps = none
  sat : F → ∀ e, r.2.finalEps = some e → r.2.found = true ∧ st.D ≤ e ∧ e ≤ E * st.D ∧ ∀ B : Bnd, EpsC st.D e m B → ∀ c,
    Walk (ed (grOf st.env st.fwd m ab s0 gl)) s0 gl c → B.M * r.2.cost ≤ B.N * c
  nopath : F → NoTimeout bs r.2.traces → r.2.found = false →
    ∃ e, st.D ≤ e ∧ e ≤ E * st.D ∧ ∀ B : Bnd, EpsC st.D e m B → ∀ c,
    Walk (ed (grOf st.env st.fwd m ab s0 gl)) s0 gl c → B.M * INF ≤ B.N * c
  live : NoTimeout bs r.2.traces → st.first = false → 1 ≤ st.decEps →
    (∀ M, st.eps ≤ M + st.finalEps → st.initEps ≤ M + st.finalEps → M + 1 ≤ bs.length →
    (∃ e, r.2.finalEps = some e ∧ e ≤ st.finalEps) ∨ r.2.found = false)

theorem replan_spec {F : Prop} {m : Nat} {ab : Option Nat} {E : Nat} {st : ARA} {s0 gl : Nat} (bs : List Nat)
    (i : Api F m ab E st) (h0 : st.start = some s0) (hg : st.goal = some gl) (hb : bs ≠ [])
    (hd : st.fwd = false → DualAt st.env s0 gl) : OkOr (replan st bs) (RPost F m ab E st s0 gl bs) := by
  unfold replan
  have sp := searchProlog_spec i h0 hg
  rw [h0, hg]
  dsimp only
  cases e1 : searchProlog st gl with
  | error x => rw [e1] at sp; exact sp
  | ok st1 =>
    rw [e1] at sp
    have sp : ProPost F m ab E st s0 gl st1 := sp
    dsimp only
    have goalA : st.fwd = true → ab = none ∨ ab = some gl := fun f => i.goalOk f gl hg
    have cx : Ctx st1 (grOf st.env st.fwd m ab s0 gl) gl := by
      have := grOf_ctx (st := st1) (m := m) (ab := ab) (s0 := s0) (gl := gl) (by rw [sp.env, sp.fwd]; exact i.env)
        (by rw [sp.fwd]; exact goalA) (by rw [sp.env, sp.fwd]; exact hd) (by rw [sp.D]; exact i.dp)
        (by rw [sp.D]; exact sp.eps.1)
      rw [sp.env, sp.fwd] at this; exact this
    have ls := searchLoop_spec bs sp.p sp.hok cx (by rw [sp.D, sp.finalEps]; exact i.fin.1) (fun h => absurd h hb) sp.it
    cases e2 : searchLoop gl bs st1 with
    | error x => rw [e2] at ls; exact ls
    | ok r =>
      rw [e2] at ls
      obtain ⟨st2, trs⟩ := r
      have ls : SearchPost (firstIter st1) (grOf st.env st.fwd m ab s0 gl) gl F bs (st2, trs) := ls
      have inv := ls.inv; have hok2 := ls.hok; have sf := ls.sf; have ri := ls.reinit; have two := ls.two
      have epsD := ls.epsD; have satD := ls.satD; have accG := ls.accG; have finn := ls.fin; have epsB := ls.epsB
      have livel := ls.live
      simp only at inv hok2 sf ri two epsD satD accG finn epsB livel
      have fi : (firstIter st1).env = st.env ∧ (firstIter st1).fwd = st.fwd ∧ (firstIter st1).D = st.D ∧
          (firstIter st1).start = st.start ∧ (firstIter st1).goal = st.goal ∧ (firstIter st1).initEps = st.initEps ∧
          (firstIter st1).finalEps = st.finalEps ∧ (firstIter st1).decEps = st.decEps ∧ (firstIter st1).first = st.first ∧
          (firstIter st1).eps = st1.eps ∧ (firstIter st1).epsSat = st1.epsSat ∧ (firstIter st1).bReinit = false := by
        unfold firstIter
        split
        · exact ⟨sp.env, sp.fwd, sp.D, sp.start, sp.goal, sp.initEps, sp.finalEps, sp.decEps, sp.first, rfl, rfl, sp.reinit⟩
        · exact ⟨sp.env, sp.fwd, sp.D, sp.start, sp.goal, sp.initEps, sp.finalEps, sp.decEps, sp.first, rfl, rfl, sp.reinit⟩
      obtain ⟨k1, k2, k3, k4, k5, k6, k7, k8, k9, k10, k11, k12⟩ := fi
      have envE : st2.env = st.env := sf.env.trans k1
      have fwdE : st2.fwd = st.fwd := sf.fwd.trans k2
      have DE : st2.D = st.D := sf.D.trans k3
      have eps2 : st2.D ≤ st2.eps ∧ st2.eps ≤ E * st2.D := by
        refine ⟨epsD, epsB _ ?_ ?_⟩
        · rw [k10, DE]; exact sp.eps.2
        · rw [k7, DE]; exact i.fin.2
      have sat2 : ∀ e, st2.epsSat = some e → st2.D ≤ e ∧ e ≤ E * st2.D := by
        intro e he
        rcases satD e he with h | ⟨h, h'⟩
        · rw [k11] at h
          rw [DE]; exact sp.satD e h
        · refine ⟨h, h' _ ?_ ?_⟩
          · rw [k10, DE]; exact sp.eps.2
          · rw [k7, DE]; exact i.fin.2
      have api2 : Api F m ab E st2 := by
        refine ⟨inv.m.data, by rw [envE, fwdE]; exact i.env, ?_, ?_, by rw [DE]; exact i.dp, ?_, ?_, eps2, sat2⟩
        · rw [fwdE, sf.goal, k5]; exact i.goalOk
        · intro _
          exact ⟨s0, gl, by rw [envE, fwdE]; exact inv, fun _ => hok2⟩
        · rw [DE, sf.initEps, k6]; exact i.ini
        · rw [DE, sf.finalEps, k7]; exact i.fin
      have acc2 : ∀ e, st2.epsSat = some e → st2.acc gl ∧ st2.g gl < INF := by
        intro e he
        have := (inv.sat e he).1
        have a : st2.acc gl := by
          by_contra na; rw [G_stale na] at this; omega
        rw [G_acc a] at this
        exact ⟨a, this⟩
      have gOk := grOf_ok i.env s0 gl
      have gvi : ∀ s, (vals st2).V s ≤ INF := inv.v.vInf
      have satW : F → ∀ e, st2.epsSat = some e → ∀ B : Bnd, EpsC st.D e m B → ∀ c,
          Walk (ed (grOf st.env st.fwd m ab s0 gl)) s0 gl c → B.M * st2.g gl ≤ B.N * c := by
        intro hF e he B hB c wk
        have sb := (inv.sat e he).2.2 hF
        rw [DE] at sb
        have := sb.bound gOk gvi hB wk (.inr rfl)
        rw [cx.hg, infl_zero] at this
        change B.M * st2.G gl ≤ _ at this
        rw [G_acc (acc2 e he).1] at this
        omega
      have live2 : NoTimeout bs trs → st.first = false → 1 ≤ st.decEps →
          (∀ M, st.eps ≤ M + st.finalEps → st.initEps ≤ M + st.finalEps → M + 1 ≤ bs.length →
          (∃ e, st2.epsSat = some e ∧ e ≤ st.finalEps) ∨ st2.G gl = INF) := by
        intro nt hf hd M h1 h2 h3
        have e := sp.epsM (M + st.finalEps) h1 h2
        rw [← k7]
        refine livel nt (by rw [k9]; exact hf) (by rw [k8]; exact hd) ?_
        have : mu (firstIter st1) ≤ 1 + ((firstIter st1).eps - (firstIter st1).finalEps) := by unfold mu; split <;> omega
        rw [k7, k10] at this
        omega
      dsimp only
      split
      next hx =>
        have en : st2.epsSat = none := by
          rcases hx with hx | hx
          · cases e : st2.epsSat with
            | none => rfl
            | some e' =>
              have := (acc2 e' e).2
              rw [hx] at this
              exact absurd this (Nat.lt_irrefl _)
          · exact hx
        refine ⟨api2, envE, fwdE, DE, sf.start.trans k4, sf.goal.trans k5, two, (fun h => by cases h), fun _ => ⟨rfl, en⟩, ?_, ?_,
          fun _ _ _ _ _ _ _ => .inr rfl⟩
        · intro _ e he
          change st2.epsSat = some e at he
          rw [en] at he; cases he
        · rintro hF ⟨N, n1, n2⟩ _
          have tn : trs ≠ [] := by
            rintro rfl
            cases bs with
            | nil => exact hb rfl
            | cons b bs =>
              obtain ⟨x1, x2⟩ := searchLoop_nil e2
              obtain ⟨e', x3, _⟩ := notDone_done x2
              rw [← x1, en] at x3; cases x3
          rcases finn N n1 n2 tn with ⟨h, _⟩ | ⟨h1, h2⟩
          · exact absurd en h
          · refine ⟨st2.eps, by rw [← DE]; exact eps2.1, by rw [← DE]; exact eps2.2, ?_⟩
            intro B hB c wk
            have sb := h2 hF
            rw [DE] at sb
            have := sb.bound gOk gvi hB wk (.inr rfl)
            rw [cx.hg, infl_zero] at this
            change B.M * st2.G gl ≤ _ at this
            rw [h1] at this
            omega
      next hx =>
        rw [not_or] at hx
        obtain ⟨hx1, hx2⟩ := hx
        obtain ⟨e, he⟩ : ∃ e, st2.epsSat = some e := by
          cases e : st2.epsSat with
          | none => exact absurd e hx2
          | some e' => exact ⟨e', rfl⟩
        obtain ⟨ag, lt⟩ := acc2 e he
        have c2 : Ctx st2 (grOf st.env st.fwd m ab s0 gl) gl :=
          ⟨cx.ok, cx.act, cx.qg, cx.hg, by rw [DE]; exact i.dp, eps2.1⟩
        obtain ⟨nx, p, q1, q2, q3⟩ := getSearchPath_spec inv c2 (by rw [envE]; exact i.env.ok) he ag
        have q1 : getSearchPath st2 s0 gl = .ok ({ st2 with next := nx }, p) := q1
        rw [q1]
        dsimp only
        have q3 : (p = [] ∧ maxSteps < st2.g gl) ∨ (FromTo p (envStart st.fwd s0 gl) (envGoal st.fwd s0 gl) ∧ p.Nodup ∧
          ∃ n, PathCost (st.env.succs (envGoal st.fwd s0 gl)) p n ∧ n ≤ st2.g gl) := by
          rw [← fwdE, ← envE]; exact q3
        have api3 : Api F m ab E { st2 with next := nx } := by
          refine ⟨⟨inv.m.data.bp, inv.m.data.ord, inv.m.data.lrel, inv.m.data.callLe, inv.m.data.staleH, inv.m.data.staleL⟩, api2.env,
            api2.goalOk, ?_, api2.dp, api2.ini, api2.fin, api2.eps, api2.satD⟩
          intro _
          refine ⟨s0, gl, ?_, fun _ => hok2⟩
          have ge : grOf st2.env st2.fwd m ab s0 gl = grOf st.env st.fwd m ab s0 gl := by rw [envE, fwdE]
          show PInv _ (grOf st2.env st2.fwd m ab s0 gl) gl F
          rw [ge]
          exact inv.next nx q2
        refine ⟨api3, envE, fwdE, DE, sf.start.trans k4, sf.goal.trans k5, two, fun _ => ⟨lt, ?_, q3⟩, (fun h => by cases h), ?_, (fun _ _ h => by cases h), ?_⟩
        · show st2.epsSat ≠ none
          rw [he]; simp
        · intro hF e' he'
          have he' : st2.epsSat = some e' := he'
          obtain ⟨s1, s2⟩ := sat2 e' he'
          rw [DE] at s1 s2
          exact ⟨rfl, s1, s2, satW hF e' he'⟩
        · intro nt hf hd M h1 h2 h3
          rcases live2 nt hf hd M h1 h2 h3 with h | h
          · exact .inl h
          · rw [G_acc ag] at h
            exact absurd lt (by omega)

theorem setSearchGoal_api {F : Prop} {m : Nat} {ab : Option Nat} {E : Nat} {st : ARA} (i : Api F m ab E st) (s : Nat)
    (hab : st.fwd = true → ab = none ∨ ab = some s) : Api F m ab E (setSearchGoal st s) := by
  unfold setSearchGoal
  split
  · exact i
  · refine ⟨⟨i.data.bp, i.data.ord, i.data.lrel, i.data.callLe, i.data.staleH, i.data.staleL⟩, i.env, ?_, ?_, i.dp, i.ini,
      i.fin, i.ini, (fun e h => by cases h)⟩
    · intro f gl h
      have h : some s = some gl := h
      cases h; exact hab f
    · intro hr
      obtain ⟨s0, gl, l⟩ := i.live hr
      have nc := bump_closed l.p.m st.initEps none (some s)
      refine ⟨s0, s, ⟨bump_minv l.p.m st.initEps none (some s), ?_, fun _ => nc, grOf_goal i.env s0 gl s l.p.v,
        fun x _ _ k hk => absurd hk (nc k), fun s hs => absurd hs (nc s), fun _ _ _ s _ hs => absurd hs (nc s),
        (fun e h => by cases h)⟩, (fun h => by cases h)⟩
      exact grOf_is (st := { st with goal := some s, epsSat := none, eps := st.initEps, iter := st.iter + 1, bNew := true, bReeval := true })
        i.env l.p.gr.start rfl hab

theorem setSearchStart_api {F : Prop} {m : Nat} {ab : Option Nat} {E : Nat} {st : ARA} (i : Api F m ab E st) (s : Nat) :
    Api F m ab E (st.setSearchStart s) := by
  unfold setSearchStart
  split
  · exact i
  · exact ⟨⟨i.data.bp, i.data.ord, i.data.lrel, i.data.callLe, i.data.staleH, i.data.staleL⟩, i.env, i.goalOk,
      (fun h => by cases h), i.dp, i.ini, i.fin, i.eps, i.satD⟩

structure CPost (F : Prop) (m : Nat) (ab : Option Nat) (E : Nat) (st : ARA) (env : PEnv) (st' : ARA) : Prop where
  api : Api F m ab E st'
  env : st'.env = env
  fwd : st'.fwd = st.fwd
  D : st'.D = st.D
  start : st'.start = st.start
  goal : st'.goal = st.goal

theorem costsChanged_spec {F : Prop} {m : Nat} {ab : Option Nat} {E : Nat} {st : ARA} (i : Api F m ab E st) {env' : PEnv}
    {sl pl : List Nat} {total : Nat} (ok : StepOk F m ab E st (.costsChanged env' sl pl total)) :
    OkOr (costsChanged st env' sl pl total) (fun p => CPost F m ab E st env' p.1) := by
  obtain ⟨e', ok⟩ := ok
  unfold costsChanged
  dsimp only
  generalize hl : (if st.fwd = true then sl else pl) = l at *
  by_cases hr : st.bReinit = true
  · rw [if_pos (.inl hr)]
    exact ⟨⟨⟨i.data.bp, i.data.ord, i.data.lrel, i.data.callLe, i.data.staleH, i.data.staleL⟩, e', i.goalOk,
      (fun h => by have h : st.bReinit = false := h; rw [hr] at h; cases h), i.dp, i.ini, i.fin, i.eps, i.satD⟩, rfl, rfl, rfl, rfl, rfl⟩
  have hr' : st.bReinit = false := by simpa using hr
  obtain ⟨s0, gl, L⟩ := i.live hr'
  have it := L.p.m.it
  rw [if_neg (by rintro (h | h); exact hr h; omega)]
  unfold updateChanged
  dsimp only
  generalize hst1 : ({ st with env := env', bReeval := true, bReinit := if l.length > total / 10 then true else st.bReinit, iter := st.iter + 1, bNew := true } : ARA) = st1
  have bm := bump_minv L.p.m st.eps st.epsSat st.goal
  have bc := bump_closed L.p.m st.eps st.epsSat st.goal
  have m1 : MInv st1 none := by
    rw [← hst1]
    exact ⟨⟨bm.data.bp, bm.data.ord, bm.data.lrel, bm.data.callLe, bm.data.staleH, bm.data.staleL⟩, bm.mem, bm.disj, bm.it,
      bm.opn, bm.iterLe, (fun h => by cases h), (fun h => by cases h)⟩
  have nc1 : ∀ s, ¬ st1.closed s := by rw [← hst1]; exact bc
  have v1 : vals st1 = vals st := by rw [← hst1]; rfl
  have flds : st1.env = env' ∧ st1.fwd = st.fwd ∧ st1.D = st.D ∧ st1.start = st.start ∧ st1.goal = st.goal ∧
      st1.initEps = st.initEps ∧ st1.finalEps = st.finalEps ∧ st1.eps = st.eps ∧ st1.epsSat = st.epsSat ∧
      st1.bReeval = true ∧ (st1.bReinit = false → ¬ l.length > total / 10) := by
    rw [← hst1]
    refine ⟨rfl, rfl, rfl, rfl, rfl, rfl, rfl, rfl, rfl, rfl, ?_⟩
    intro h x
    have h : (if l.length > total / 10 then true else st.bReinit) = false := h
    rw [if_pos x] at h; cases h
  obtain ⟨k1, k2, k3, k4, k5, k6, k7, k8, k9, k10, k11⟩ := flds
  clear hst1
  have cs := changeLoop_spec l m1
  cases e : changeLoop l st1 with
  | error x => rw [e] at cs; exact cs
  | ok p =>
    rw [e] at cs
    obtain ⟨st2, n⟩ := p
    have cs : ChangePost st1 l st2 n := cs
    dsimp only
    have f := cs.f
    have nc2 : ∀ s, ¬ st2.closed s := fun s h => nc1 s ((cs.cl s).mp h)
    -- the result
    generalize hst3 : (if n > 0 then { st2 with eps := st2.initEps, epsSat := none } else st2) = st3
    have h3 : st3 = { st2 with eps := st3.eps, epsSat := st3.epsSat } := by
      rw [← hst3]; split <;> rfl
    have g3 : (n > 0 → st3.eps = st.initEps ∧ st3.epsSat = none) ∧ (n = 0 → st3.eps = st.eps ∧ st3.epsSat = st.epsSat) := by
      rw [← hst3]
      constructor
      · intro h; rw [if_pos h]; exact ⟨f.initEps.trans k6, rfl⟩
      · intro h; rw [if_neg (by omega)]; exact ⟨f.eps.trans k8, f.epsSat.trans k9⟩
    clear hst3
    generalize st3.eps = ee at h3 g3
    generalize st3.epsSat = xx at h3 g3
    subst h3
    have m3 : MInv { st2 with eps := ee, epsSat := xx } none := by
      refine ⟨⟨cs.m.data.bp, cs.m.data.ord, cs.m.data.lrel, cs.m.data.callLe, cs.m.data.staleH, cs.m.data.staleL⟩, cs.m.mem, cs.m.disj,
        cs.m.it, cs.m.opn, cs.m.iterLe, cs.m.inc, ?_⟩
      intro h
      have h : st2.bReeval = false := h
      rw [f.bReeval, k10] at h; cases h
    have epsE : st.D ≤ ee ∧ ee ≤ E * st.D := by
      by_cases z : n = 0
      · rw [(g3.2 z).1]; exact i.eps
      · rw [(g3.1 (by omega)).1]; exact i.ini
    have satE : ∀ e, xx = some e → st.D ≤ e ∧ e ≤ E * st.D := by
      intro e he
      by_cases z : n = 0
      · rw [(g3.2 z).2] at he; exact i.satD e he
      · rw [(g3.1 (by omega)).2] at he; cases he
    have envE : st2.env = env' := f.env.trans k1
    have fwdE : st2.fwd = st.fwd := f.fwd.trans k2
    have DE : st2.D = st.D := f.D.trans k3
    refine ⟨⟨m3.data, ?_, ?_, ?_, ?_, ?_, ?_, ?_, ?_⟩, envE, fwdE, DE, f.start.trans k4, f.goal.trans k5⟩
    · show EnvAD st2.env st2.fwd m ab; rw [envE, fwdE]; exact e'
    · show st2.fwd = true → ∀ gl, st2.goal = some gl → _
      rw [fwdE, f.goal, k5]; exact i.goalOk
    · intro hri
      have hri : st2.bReinit = false := hri
      rw [f.bReinit] at hri
      have nl := k11 hri
      obtain ⟨cv, sh, ne⟩ := (ok.resolve_left hr).resolve_left nl
      have ud : Upd (grOf st.env st.fwd m ab s0 gl) (grOf env' st.fwd m ab s0 gl) F (vals st).a l :=
        grOf_upd i.env e' cv ne
      have stale : ∀ s, ¬ (vals st).a s → (vals st).G s = INF := fun s h => G_stale h
      have w0 := ud.w L.p.v stale
      have gi1 : IsGr st1 (grOf env' st.fwd m ab s0 gl) gl := by
        have := grOf_is (st := st1) (m := m) (ab := ab) (s0 := s0) (gl := gl) (by rw [k1, k2]; exact e') (by rw [k4]; exact L.p.gr.start)
          (by rw [k5]; exact L.p.gr.goal) (by rw [k2]; exact fun f => i.goalOk f gl L.p.gr.goal)
        rw [k1, k2] at this; exact this
      have w2 : W (grOf env' st.fwd m ab s0 gl) F (vals st2) [] :=
        cs.w _ gl F (grOf_ok e' s0 gl) gi1 (by rw [v1]; exact w0)
      refine ⟨s0, gl, ?_, ?_⟩
      · have ge : grOf st2.env st2.fwd m ab s0 gl = grOf env' st.fwd m ab s0 gl := by rw [envE, fwdE]
        show PInv { st2 with eps := ee, epsSat := xx } (grOf st2.env st2.fwd m ab s0 gl) gl F
        rw [ge]
        have gi2 := gi1.fr f
        refine ⟨m3, ⟨gi2.base, gi2.rev, gi2.heur, gi2.goal, gi2.start, gi2.nbr⟩, fun _ => nc2, w2.idle,
          fun x _ _ k hk => absurd hk (nc2 k), fun s hs => absurd hs (nc2 s), fun _ _ _ s _ hs => absurd hs (nc2 s), ?_⟩
        intro e he
        have he : xx = some e := he
        by_cases z : n = 0
        · obtain ⟨z1, z2⟩ := cs.zero z
          rw [(g3.2 z).2] at he
          have hH : (grOf env' st.fwd m ab s0 gl).H = (grOf st.env st.fwd m ab s0 gl).H := by
            rcases sh with sh | ⟨t, t1, t2, t3⟩
            · unfold SameHeur at sh
              simp only [grOf]
              by_cases fw : st.fwd = true
              · rw [if_pos fw] at sh; rw [if_pos fw, if_pos fw, sh]
              · rw [if_neg fw] at sh; rw [if_neg fw, if_neg fw, sh]
            · refine absurd z (cs.pos ⟨t, t1, by rw [k4]; exact t2, ?_⟩)
              have : (vals st1).a t := by rw [v1]; exact t3
              exact this
          have zz : ∀ s ∈ l, s = (grOf st.env st.fwd m ab s0 gl).s0 ∨ ¬ (vals st).a s := by
            intro s hs
            rcases z2 s hs with h | h
            · left
              rw [k4, L.p.gr.start] at h
              cases h; rfl
            · right
              rw [← v1]; exact h
          obtain ⟨s1, s2, s3⟩ := L.p.sat e he
          have ve : vals { st2 with eps := ee, epsSat := xx } = vals st := by
            have : vals { st2 with eps := ee, epsSat := xx } = vals st2 := rfl
            rw [this, z1, v1]
          refine ⟨?_, ?_, ?_⟩
          · show (vals { st2 with eps := ee, epsSat := xx }).G gl < INF
            rw [ve]; exact s1
          · rw [ve]
            exact ud.clean L.p.v.startG zz hH (fun s h => accV (st := st) (Nat.ne_of_lt h)) s2
          · intro hF
            rw [ve]
            show Sub _ st2.D e gl _
            rw [DE]
            exact ud.sub hF w0 zz hH (s3 hF)
        · rw [(g3.1 (by omega)).2] at he; cases he
      · intro h
        have h : st2.bReeval = false := h
        rw [f.bReeval, k10] at h; cases h
    · show 0 < st2.D; rw [DE]; exact i.dp
    · show st2.D ≤ st2.initEps ∧ st2.initEps ≤ E * st2.D
      rw [DE, f.initEps, k6]; exact i.ini
    · show st2.D ≤ st2.finalEps ∧ st2.finalEps ≤ E * st2.D
      rw [DE, f.finalEps, k7]; exact i.fin
    · show st2.D ≤ ee ∧ ee ≤ E * st2.D
      rw [DE]; exact epsE
    · show ∀ e, xx = some e → st2.D ≤ e ∧ e ≤ E * st2.D
      rw [DE]; exact satE

end Sbpl.AD
